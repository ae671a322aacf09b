import Verif.Props.OrbitPlot
import Verif.Props.Orbit

/-!
# C141, C142: phase panels
-/

namespace Radvel
open Real

/-- C141: the panel of planet `n` shows, at the phases of the observations and one period earlier, their velocities minus their own offset, the trend and all other planets; the curve is
the velocity of planet `n` alone at the phases of the time grid (missing: decorrelation variables for which decorrelation does not work, see C31, and instruments sharing a suffix). -/
theorem C141_panel_partial (dflt : ℝ) (drive : Drive) (tb : ℝ) (s : VState ℝ) (Ls : List RVLike) (h : Likes s Ls) (dv : RVLike → List String) (dc : RVLike → String → ℝ) (hd : ∀ L ∈ Ls, PlainDecorr s.params L (dv L) (dc L))
    (hn : (Ls.map RVLike.suffix).Nodup) (a : PlotArgs) (f : OrbitFig) (hf : orbitInit dflt drive tb s Ls a = .ok f)
    (orb : Nat → Synth) (ho : Elements s.params orb) (v : Nat → ℝ → ℝ) (hv : ∀ m, IsPlanet s.params m → ∀ x ∈ allObs Ls, drive x.2.t (orb m) = some (v m x.2.t))
    (γ : RVLike → ℝ) (hγ : ∀ L ∈ Ls, readPar f.st (.inst .gamma L.suffix) = .ok (γ L)) (n : Nat) (hpl : IsPlanet s.params n) (hper : (orb n).per ≠ 0) :
    let φ := orbPhase (ephemeris s.params orb n) (orb n).per
    let dat : RVLike × Obs → ℝ := fun x => x.2.y - γ x.1 - decorrTerm x.1 (dv x.1) (dc x.1) x.2 - ∑ m ∈ (Finset.Icc 1 s.params.numPlanets).erase n, v m x.2.t - trendTerm s.params tb x.2.t
    let err : RVLike × Obs → ℝ := fun x => √(x.2.err ^ 2 + jitterOf s.params x.1 ^ 2)
    ∃ p, phasefold drive tb f false n = .ok p ∧ p.highlight = none ∧
      p.curve = f.rvmodt.map (fun t => (some (φ t - 1), drive t (orb n))) ++ f.rvmodt.map (fun t => (some (φ t), drive t (orb n))) ∧
      p.data = (allObs Ls).map (fun x => (⟨some (φ x.2.t - 1), some (dat x), err x, instrumentName x.1.suffix⟩ : FoldPoint)) ++
        (allObs Ls).map (fun x => ⟨some (φ x.2.t), some (dat x), err x, instrumentName x.1.suffix⟩) ∧
      p.xlim = a.phaseLimits.getD (-0.5, 0.5) := by
  rw [instrumentName_eq]
  have := phasefold_eq dflt drive tb s Ls h dv dc hd hn a f hf orb ho v hv γ hγ n hpl hper false
  intro φ dat err
  simp only at this
  exact ⟨_, this, rfl, rfl, rfl, rfl⟩

/-- What a panel contains, once it is made. -/
theorem phasefold_inv (dflt : ℝ) (drive : Drive) (tb : ℝ) (s : VState ℝ) (Ls : List RVLike) (h : Likes s Ls) (dv : RVLike → List String) (dc : RVLike → String → ℝ) (hd : ∀ L ∈ Ls, PlainDecorr s.params L (dv L) (dc L))
    (hn : (Ls.map RVLike.suffix).Nodup) (a : PlotArgs) (f : OrbitFig) (hf : orbitInit dflt drive tb s Ls a = .ok f)
    (orb : Nat → Synth) (ho : Elements s.params orb) (v : Nat → ℝ → ℝ) (hv : ∀ m, IsPlanet s.params m → ∀ x ∈ allObs Ls, drive x.2.t (orb m) = some (v m x.2.t))
    (γ : RVLike → ℝ) (hγ : ∀ L ∈ Ls, readPar f.st (.inst .gamma L.suffix) = .ok (γ L)) (n : Nat) (hpl : IsPlanet s.params n) (hper : (orb n).per ≠ 0)
    (hl : Bool) (p : FoldPanel) (hp : phasefold drive tb f hl n = .ok p) :
    let φ := orbPhase (ephemeris s.params orb n) (orb n).per
    let dat : RVLike × Obs → ℝ := fun x => x.2.y - γ x.1 - decorrTerm x.1 (dv x.1) (dc x.1) x.2 - ∑ m ∈ (Finset.Icc 1 s.params.numPlanets).erase n, v m x.2.t - trendTerm s.params tb x.2.t
    let err : RVLike × Obs → ℝ := fun x => √(x.2.err ^ 2 + jitterOf s.params x.1 ^ 2)
    p.curve = f.rvmodt.map (fun t => (some (φ t - 1), drive t (orb n))) ++ f.rvmodt.map (fun t => (some (φ t), drive t (orb n))) ∧
    p.data = (allObs Ls).map (fun x => (⟨some (φ x.2.t - 1), some (dat x), err x, telOf x.1.suffix⟩ : FoldPoint)) ++
        (allObs Ls).map (fun x => ⟨some (φ x.2.t), some (dat x), err x, telOf x.1.suffix⟩) ∧
    p.bins = foldBins a.nobin (allObs Ls).length p.data ∧
    (hl = true → ∃ q, p.highlight = some q ∧ foldHighlight f n ((allObs Ls).map (fun x => some (dat x))) = .ok q) := by
  have hq := phasefold_eq dflt drive tb s Ls h dv dc hd hn a f hf orb ho v hv γ hγ n hpl hper hl
  intro φ dat err
  simp only [bind, Except.bind] at hq
  rw [hp] at hq
  split at hq
  · cases hq
  · rename_i _ w hw
    have := Except.ok.inj hq
    refine ⟨by rw [this], by rw [this], by rw [this], ?_⟩
    intro h1
    rw [if_pos h1] at hw
    rcases hfh : foldHighlight f n ((allObs Ls).map (fun x => some (dat x))) with e | q
    · rw [show foldHighlight f n _ = _ from hfh] at hw; cases hw
    · rw [show foldHighlight f n _ = _ from hfh] at hw
      exact ⟨q, by rw [this]; exact (Except.ok.inj hw).symm, rfl⟩

theorem filter_two_copies {α β : Type} (l : List α) (g : α → β) (A B : α → FoldPoint) (out : FoldPoint → β) (hA : ∀ x, out (A x) = g x) (hB : ∀ x, out (B x) = g x)
    (P : FoldPoint → Prop) [DecidablePred P] (hx : ∀ x ∈ l, (P (A x) ∧ ¬ P (B x)) ∨ (¬ P (A x) ∧ P (B x))) :
    (((l.map A ++ l.map B).filter (fun x => decide (P x))).map out).Perm (l.map g) := by
  induction l with
  | nil => exact List.Perm.refl _
  | cons x t ih =>
    have hi := ih (fun y hy => hx y (List.mem_cons_of_mem _ hy))
    simp only [List.filter_append, List.map_append, List.map_cons, List.filter_cons] at hi ⊢
    rcases hx x (by simp) with ⟨h1, h2⟩ | ⟨h1, h2⟩
    · simp only [h1, h2, decide_true, if_true, decide_false, Bool.false_eq_true, if_false, List.map_cons, hA, List.cons_append]
      exact hi.cons _
    · simp only [h1, h2, decide_true, if_true, decide_false, Bool.false_eq_true, if_false, List.map_cons, hB]
      exact List.perm_middle.trans (hi.cons _)

open Classical in
/-- C141: between the phases -1/2 and 1/2, the range shown by default, every observation appears exactly once. -/
theorem C141_once_partial (dflt : ℝ) (drive : Drive) (tb : ℝ) (s : VState ℝ) (Ls : List RVLike) (h : Likes s Ls) (dv : RVLike → List String) (dc : RVLike → String → ℝ) (hd : ∀ L ∈ Ls, PlainDecorr s.params L (dv L) (dc L))
    (hn : (Ls.map RVLike.suffix).Nodup) (a : PlotArgs) (f : OrbitFig) (hf : orbitInit dflt drive tb s Ls a = .ok f)
    (orb : Nat → Synth) (ho : Elements s.params orb) (v : Nat → ℝ → ℝ) (hv : ∀ m, IsPlanet s.params m → ∀ x ∈ allObs Ls, drive x.2.t (orb m) = some (v m x.2.t))
    (γ : RVLike → ℝ) (hγ : ∀ L ∈ Ls, readPar f.st (.inst .gamma L.suffix) = .ok (γ L)) (n : Nat) (hpl : IsPlanet s.params n) (hper : (orb n).per ≠ 0)
    (hl : Bool) (p : FoldPanel) (hp : phasefold drive tb f hl n = .ok p) :
    ((p.data.filter (fun x => decide x.Central)).map (fun x => (x.vel, x.err, x.tel))).Perm
      ((allObs Ls).map (fun x => (some (x.2.y - γ x.1 - decorrTerm x.1 (dv x.1) (dc x.1) x.2 - ∑ m ∈ (Finset.Icc 1 s.params.numPlanets).erase n, v m x.2.t - trendTerm s.params tb x.2.t),
        √(x.2.err ^ 2 + jitterOf s.params x.1 ^ 2), instrumentName x.1.suffix))) := by
  rw [instrumentName_eq]
  obtain ⟨_, hdata, _, _⟩ := phasefold_inv dflt drive tb s Ls h dv dc hd hn a f hf orb ho v hv γ hγ n hpl hper hl p hp
  rw [hdata]
  apply filter_two_copies (out := fun x => (x.vel, x.err, x.tel)) (P := FoldPoint.Central)
  · intro x; rfl
  · intro x; rfl
  · intro x _
    have h0 : 0 ≤ orbPhase (ephemeris s.params orb n) (orb n).per x.2.t := Int.fract_nonneg _
    have h1 : orbPhase (ephemeris s.params orb n) (orb n).per x.2.t < 1 := Int.fract_lt_one _
    set y := orbPhase (ephemeris s.params orb n) (orb n).per x.2.t
    unfold FoldPoint.Central
    by_cases hy : y < 1 / 2
    · refine .inr ⟨?_, ⟨y, rfl, by linarith, hy⟩⟩
      rintro ⟨z, hz, h2, _⟩
      simp only [Option.some.injEq] at hz
      linarith
    · refine .inl ⟨⟨y - 1, rfl, by linarith, by linarith⟩, ?_⟩
      rintro ⟨z, hz, _, h2⟩
      simp only [Option.some.injEq] at hz
      linarith

/-- Two times at the same phase, up to whole periods, differ by whole periods. -/
theorem orbPhase_int (t0 per t t' : ℝ) (hp : 0 < per) (k : ℤ) (h : orbPhase t0 per t' = orbPhase t0 per t + k) : ∃ j : ℤ, t' = t + j * per := by
  unfold orbPhase Int.fract at h
  refine ⟨k + ⌊(t' - t0) / per⌋ - ⌊(t - t0) / per⌋, ?_⟩
  push_cast
  have : (t' - t0) / per = (t - t0) / per + (k + ⌊(t' - t0) / per⌋ - ⌊(t - t0) / per⌋) := by linarith
  have h2 : t' - t0 = ((t - t0) / per + (k + ⌊(t' - t0) / per⌋ - ⌊(t - t0) / per⌋)) * per := by
    rw [← this]; field_simp
  rw [add_mul, div_mul_cancel₀ _ hp.ne'] at h2
  linarith

/-- C141: where the curve passes at the phase of an observation its height is the planet's velocity at the time of that observation, so that the vertical distance to the point is the
observation's residual (missing besides: negative periods, `C141_negative_violated`). -/
theorem C141_distance_partial (dflt : ℝ) (solve : ℝ → ℝ → Option ℝ) (formula : ℝ → ℝ → ℝ → ℝ → ℝ) (tb : ℝ) (s : VState ℝ) (Ls : List RVLike) (h : Likes s Ls) (dv : RVLike → List String) (dc : RVLike → String → ℝ) (hd : ∀ L ∈ Ls, PlainDecorr s.params L (dv L) (dc L))
    (hn : (Ls.map RVLike.suffix).Nodup) (a : PlotArgs) (f : OrbitFig) (hf : orbitInit dflt (driveOf solve formula) tb s Ls a = .ok f)
    (orb : Nat → Synth) (ho : Elements s.params orb) (v : Nat → ℝ → ℝ)
    (hv : ∀ m, IsPlanet s.params m → ∀ x ∈ allObs Ls, driveOf solve formula x.2.t (orb m) = some (v m x.2.t))
    (γ : RVLike → ℝ) (hγ : ∀ L ∈ Ls, readPar f.st (.inst .gamma L.suffix) = .ok (γ L)) (n : Nat) (hpl : IsPlanet s.params n) (hper : 0 < (orb n).per)
    (hl : Bool) (p : FoldPanel) (hp : phasefold (driveOf solve formula) tb f hl n = .ok p) (i : Nat) (x : RVLike × Obs) (hx : (allObs Ls)[i]? = some x)
    (φ y u : ℝ) (hc : (some φ, some u) ∈ p.curve) (D : FoldPoint) (hD : p.data[i]? = some D ∨ p.data[(allObs Ls).length + i]? = some D)
    (hDφ : D.phase = some φ) (hDy : D.vel = some y) :
    u = v n x.2.t ∧ f.rawresid[i]? = some (some (y - u)) := by
  have hres := (C140_velocities_partial dflt (driveOf solve formula) tb s Ls h dv dc hd hn a f hf orb ho v hv γ hγ).2.2.2.1
  obtain ⟨hcurve, hdata, _, _⟩ := phasefold_inv dflt (driveOf solve formula) tb s Ls h dv dc hd hn a f hf orb ho v hv γ hγ n hpl hper.ne' hl p hp
  have hxm : x ∈ allObs Ls := List.mem_of_getElem? hx
  have hlt : i < (allObs Ls).length := (List.getElem?_eq_some_iff.1 hx).1
  rw [hcurve] at hc
  rw [hdata] at hD
  have hpt : ∃ k : ℤ, orbPhase (ephemeris s.params orb n) (orb n).per x.2.t = φ + k ∧
      y = x.2.y - γ x.1 - decorrTerm x.1 (dv x.1) (dc x.1) x.2 - ∑ m ∈ (Finset.Icc 1 s.params.numPlanets).erase n, v m x.2.t - trendTerm s.params tb x.2.t := by
    rcases hD with hD | hD
    · rw [List.getElem?_append_left (by simpa using hlt), List.getElem?_map, hx] at hD
      simp only [Option.map_some, Option.some.injEq] at hD
      rw [← hD] at hDφ hDy
      simp only [Option.some.injEq] at hDφ hDy
      exact ⟨1, by push_cast; linarith, hDy.symm⟩
    · rw [List.getElem?_append_right (by simp), List.getElem?_map] at hD
      simp only [List.length_map, Nat.add_sub_cancel_left, hx, Option.map_some, Option.some.injEq] at hD
      rw [← hD] at hDφ hDy
      simp only [Option.some.injEq] at hDφ hDy
      exact ⟨0, by push_cast; linarith, hDy.symm⟩
  obtain ⟨k, hk, hy⟩ := hpt
  have hct : ∃ (t : ℝ) (k' : ℤ), orbPhase (ephemeris s.params orb n) (orb n).per t = φ + k' ∧ driveOf solve formula t (orb n) = some u := by
    rcases List.mem_append.1 hc with hc | hc
    · obtain ⟨t, _, ht⟩ := List.mem_map.1 hc
      simp only [Prod.mk.injEq, Option.some.injEq] at ht
      exact ⟨t, 1, by push_cast; linarith [ht.1], ht.2⟩
    · obtain ⟨t, _, ht⟩ := List.mem_map.1 hc
      simp only [Prod.mk.injEq, Option.some.injEq] at ht
      exact ⟨t, 0, by push_cast; linarith [ht.1], ht.2⟩
  obtain ⟨t, k', hk', hu⟩ := hct
  obtain ⟨j, hj⟩ := orbPhase_int (ephemeris s.params orb n) (orb n).per t x.2.t hper (k - k') (by push_cast; linarith)
  have huv : u = v n x.2.t := by
    have h1 := hv n hpl x hxm
    rw [hj] at h1
    unfold driveOf at h1 hu
    rw [C23_periodic _ _ _ _ _ _ _ _ _ hper, hu] at h1
    rw [Option.some.inj h1, ← hj]
  refine ⟨huv, ?_⟩
  rw [hres, List.getElem?_map, hx]
  simp only [Option.map_some]
  rw [huv, hy, ← Finset.add_sum_erase _ (fun m => v m x.2.t) (Finset.mem_Icc.2 hpl)]
  congr 2
  ring

theorem argmax_spec (l : List ℝ) (h : l ≠ []) : ∃ i t, argmax l = some i ∧ l[i]? = some t ∧ ∀ u ∈ l, u ≤ t := by
  classical
  obtain ⟨t, ht, hmax⟩ : ∃ t ∈ l, ∀ u ∈ l, u ≤ t := by
    obtain ⟨m, hm⟩ : ∃ m, l.max? = some m := by
      cases hm : l.max? with
      | none => rw [List.max?_eq_none_iff] at hm; exact absurd hm h
      | some m => exact ⟨m, rfl⟩
    exact ⟨m, (List.max?_eq_some_iff.1 hm).1, (List.max?_eq_some_iff.1 hm).2⟩
  unfold argmax
  cases hi : l.findIdx? (fun t => decide (∀ u ∈ l, u ≤ t)) with
  | none =>
    rw [List.findIdx?_eq_none_iff] at hi
    have := hi t ht
    simp only [decide_eq_false_iff_not] at this
    exact absurd hmax this
  | some i =>
    rw [List.findIdx?_eq_some_iff_getElem] at hi
    obtain ⟨hlt, hd, _⟩ := hi
    exact ⟨i, l[i], rfl, List.getElem?_eq_getElem hlt, by simpa using hd⟩

/-- C141 in full is false for negative periods (/repo/radvel/kepler.py 42-43 replaces them by 1e-4, /repo/radvel/utils.py 367-368 folds with them): for every eccentric orbit whose velocity is not constant there is a negative period with which two times of the same phase have different velocities, so that points of the panel at one phase belong to different heights of the curve. -/
theorem C141_negative_violated (solve : ℝ → ℝ → Option ℝ) (formula : ℝ → ℝ → ℝ → ℝ → ℝ) (t0 tp e w k M : ℝ) (he : 0 < e) (he' : e ≤ 0.99) (hM : 0 < M) (hM' : M < 2 * Real.pi)
    (hv : (solve 0 e).map (formula e w k) ≠ (solve M e).map (formula e w k)) :
    ∃ per < 0, ∃ t t' : ℝ, orbPhase t0 per t' = orbPhase t0 per t ∧ driveOf solve formula t' ⟨per, tp, e, w, k⟩ ≠ driveOf solve formula t ⟨per, tp, e, w, k⟩ := by
  have hpi := Real.pi_pos
  have hq : 0 < M / (2 * Real.pi) := by positivity
  have hq' : M / (2 * Real.pi) < 1 := by rw [div_lt_one (by positivity)]; exact hM'
  have hper : -(1e-4 * (1 - M / (2 * Real.pi))) < 0 := by linarith
  refine ⟨_, hper, tp, tp + -(1e-4 * (1 - M / (2 * Real.pi))), ?_, ?_⟩
  · unfold orbPhase
    have : (tp + -(1e-4 * (1 - M / (2 * Real.pi))) - t0) / -(1e-4 * (1 - M / (2 * Real.pi))) = (tp - t0) / -(1e-4 * (1 - M / (2 * Real.pi))) + 1 := by
      generalize -(1e-4 * (1 - M / (2 * Real.pi))) = q at hper ⊢
      have := hper.ne
      field_simp
      ring
    rw [this, Int.fract_add_one]
  · have m0 : meanAnomaly tp tp 1e-4 = 0 := by simp [meanAnomaly]
    have m1 : meanAnomaly (tp + -(1e-4 * (1 - M / (2 * Real.pi)))) tp 1e-4 = M := by
      have q : (tp + -(1e-4 * (1 - M / (2 * Real.pi))) - tp) / 1e-4 = M / (2 * Real.pi) + (-1 : ℤ) := by push_cast; ring
      have f : ⌊M / (2 * Real.pi)⌋ = 0 := Int.floor_eq_zero_iff.2 ⟨hq.le, hq'⟩
      unfold meanAnomaly
      rw [q, Int.floor_add_intCast, f]
      push_cast
      field_simp
      ring
    unfold driveOf rvDrive
    simp only [he.ne', if_false, hper, if_true, he.not_gt, not_lt.2 he', m0, m1]
    exact fun h => hv h.symm

/-- The hypotheses of `C141_negative_violated` are met by the numpy formula and a solver that is right at the anomalies 0 and `π / 2 - e`, for every eccentricity. -/
example (solve : ℝ → ℝ → Option ℝ) (e : ℝ) (he : 0 < e) (he' : e ≤ 0.99) (h0 : solve 0 e = some 0) (h1 : solve (Real.pi / 2 - e) e = some (Real.pi / 2)) :
    0 < Real.pi / 2 - e ∧ Real.pi / 2 - e < 2 * Real.pi ∧ (solve 0 e).map (rvNumpy e 0 1) ≠ (solve (Real.pi / 2 - e) e).map (rvNumpy e 0 1) := by
  have h3 := Real.pi_gt_three
  refine ⟨by linarith, by linarith, ?_⟩
  rw [h0, h1]
  have a : rvNumpy e 0 1 0 = 1 + e := by simp [rvNumpy, trueAnomalyOf]
  have b : rvNumpy e 0 1 (Real.pi / 2) = 0 := by
    have hx : ((1 + e) / (1 - e)) ^ (0.5 : ℝ) * Real.tan (Real.pi / 2 / 2) = √((1 + e) / (1 - e)) := by
      rw [show Real.pi / 2 / 2 = Real.pi / 4 by ring, Real.tan_pi_div_four, mul_one, Real.sqrt_eq_rpow]
      norm_num
    have hp : 0 < 1 - e := by linarith
    unfold rvNumpy trueAnomalyOf
    rw [hx, add_zero, cos_two_arctan, Real.sq_sqrt (by positivity), Real.cos_zero]
    field_simp
    ring
  simp only [Option.map_some, a, b, ne_eq, Option.some.injEq]
  linarith

/-- C141: with `highlight_last` the ring is drawn around a point of the panel that belongs to an observation of the latest time, at its phase in `(-1/2, 1/2]`. -/
theorem C141_highlight_partial (dflt : ℝ) (drive : Drive) (tb : ℝ) (s : VState ℝ) (Ls : List RVLike) (h : Likes s Ls) (dv : RVLike → List String) (dc : RVLike → String → ℝ) (hd : ∀ L ∈ Ls, PlainDecorr s.params L (dv L) (dc L))
    (hn : (Ls.map RVLike.suffix).Nodup) (a : PlotArgs) (f : OrbitFig) (hf : orbitInit dflt drive tb s Ls a = .ok f)
    (orb : Nat → Synth) (ho : Elements s.params orb) (v : Nat → ℝ → ℝ) (hv : ∀ m, IsPlanet s.params m → ∀ x ∈ allObs Ls, drive x.2.t (orb m) = some (v m x.2.t))
    (γ : RVLike → ℝ) (hγ : ∀ L ∈ Ls, readPar f.st (.inst .gamma L.suffix) = .ok (γ L)) (n : Nat) (hpl : IsPlanet s.params n) (hper : (orb n).per ≠ 0)
    (hne : allObs Ls ≠ []) :
    ∃ p i x D φ, phasefold drive tb f true n = .ok p ∧ (allObs Ls)[i]? = some x ∧ (∀ y ∈ allObs Ls, y.2.t ≤ x.2.t) ∧
      (p.data[i]? = some D ∨ p.data[(allObs Ls).length + i]? = some D) ∧ D.phase = some φ ∧ -1 / 2 < φ ∧ φ ≤ 1 / 2 ∧ p.highlight = some (D.phase, D.vel) := by
  obtain ⟨s1, longp, g, hc, hb1, e2, e3, e4, e5, e6, e7, e8, e9, e10, e11⟩ := orbitInit_fig dflt drive tb s Ls h dv dc hd hn a f hf
  have htimes : f.rvtimes = (allObs Ls).map (fun x => x.2.t) := by rw [e11]; exact flatMap_allObs Ls (fun _ o => o.t)
  have hq := phasefold_eq dflt drive tb s Ls h dv dc hd hn a f hf orb ho v hv γ hγ n hpl hper true
  obtain ⟨i, t, ha, hi, hmax⟩ := argmax_spec f.rvtimes (by rw [htimes]; simpa using hne)
  have hi' := hi
  rw [htimes, List.getElem?_map] at hi'
  obtain ⟨x, hx, hxt⟩ := Option.map_eq_some_iff.1 hi'
  have hlt : i < (allObs Ls).length := (List.getElem?_eq_some_iff.1 hx).1
  have hfh : foldHighlight f n ((allObs Ls).map (fun x => some (x.2.y - γ x.1 - decorrTerm x.1 (dv x.1) (dc x.1) x.2 - ∑ m ∈ (Finset.Icc 1 s.params.numPlanets).erase n, v m x.2.t - trendTerm s.params tb x.2.t)))
      = .ok (highlightPhase (some (orbPhase (ephemeris s.params orb n) (orb n).per t)),
          some (x.2.y - γ x.1 - decorrTerm x.1 (dv x.1) (dc x.1) x.2 - ∑ m ∈ (Finset.Icc 1 s.params.numPlanets).erase n, v m x.2.t - trendTerm s.params tb x.2.t)) := by
    unfold foldHighlight
    rw [ha]
    simp only [hi, List.getElem?_map, hx, Option.map_some, tToPhase_synth s.params f.params dflt hc e7 n hpl orb ho hper]
    rfl
  simp only [if_true, hfh, bind, Except.bind, Except.map, pure, Except.pure] at hq
  have hlatest : ∀ y ∈ allObs Ls, y.2.t ≤ x.2.t := by
    intro y hy
    rw [hxt]
    exact hmax _ (by rw [htimes]; exact List.mem_map.2 ⟨y, hy, rfl⟩)
  have h0 : 0 ≤ orbPhase (ephemeris s.params orb n) (orb n).per t := Int.fract_nonneg _
  have h1 : orbPhase (ephemeris s.params orb n) (orb n).per t < 1 := Int.fract_lt_one _
  by_cases hh : orbPhase (ephemeris s.params orb n) (orb n).per t > 0.5
  · refine ⟨_, i, x, ⟨some (orbPhase (ephemeris s.params orb n) (orb n).per x.2.t - 1), some (x.2.y - γ x.1 - decorrTerm x.1 (dv x.1) (dc x.1) x.2 - ∑ m ∈ (Finset.Icc 1 s.params.numPlanets).erase n, v m x.2.t - trendTerm s.params tb x.2.t), √(x.2.err ^ 2 + jitterOf s.params x.1 ^ 2), telOf x.1.suffix⟩, orbPhase (ephemeris s.params orb n) (orb n).per t - 1,
      hq, hx, hlatest, .inl ?_, by rw [hxt], by norm_num at hh; linarith, by linarith, ?_⟩
    · rw [List.getElem?_append_left (by simpa using hlt), List.getElem?_map, hx]
      rfl
    · simp only [highlightPhase, Option.map_some, if_pos hh, hxt]
  · refine ⟨_, i, x, ⟨some (orbPhase (ephemeris s.params orb n) (orb n).per x.2.t), some (x.2.y - γ x.1 - decorrTerm x.1 (dv x.1) (dc x.1) x.2 - ∑ m ∈ (Finset.Icc 1 s.params.numPlanets).erase n, v m x.2.t - trendTerm s.params tb x.2.t), √(x.2.err ^ 2 + jitterOf s.params x.1 ^ 2), telOf x.1.suffix⟩, orbPhase (ephemeris s.params orb n) (orb n).per t,
      hq, hx, hlatest, .inr ?_, by rw [hxt], by linarith, by norm_num at hh; linarith, ?_⟩
    · rw [List.getElem?_append_right (by simp), List.getElem?_map]
      simp only [List.length_map, Nat.add_sub_cancel_left, hx, Option.map_some]
    · simp only [highlightPhase, Option.map_some, if_neg hh, hxt]

/-! ## C142: binned points -/

theorem meanY_eq (l : List XY) : meanY l = meanReal (l.map XY.y) := by simp [meanY, meanReal]

theorem stdErrY_eq (l : List XY) : stdErrY l = stdErrReal (l.map XY.y) := by
  unfold stdErrY stdErrReal
  rw [meanY_eq, List.map_map, List.length_map]
  rfl

theorem meanReal_perm {l l' : List ℝ} (h : l.Perm l') : meanReal l = meanReal l' := by unfold meanReal; rw [h.sum_eq, h.length_eq]

theorem stdErrReal_perm {l l' : List ℝ} (h : l.Perm l') : stdErrReal l = stdErrReal l' := by
  unfold stdErrReal
  rw [meanReal_perm h, (h.map _).sum_eq, h.length_eq]

theorem inPart_shift (lo hi : ℝ) (n i : Nat) (x : ℝ) : InPart lo hi n i x ↔ InPart (lo - 1) (hi - 1) n i (x - 1) := by
  unfold InPart
  have e : hi - 1 - (lo - 1) = hi - lo := by ring
  rw [e]
  refine and_congr ⟨fun h => by linarith, fun h => by linarith⟩ (or_congr ⟨fun h => by linarith, fun h => by linarith⟩ (and_congr Iff.rfl ⟨fun h => by linarith, fun h => by linarith⟩))

open Classical in
/-- Members of a part narrower than a period, among points that occur at a phase and one period later. -/
theorem two_copies_part {α : Type} (l : List α) (A B : α → XY) (y : α → ℝ) (P : ℝ → Prop) (hA : ∀ x, (A x).y = y x) (hB : ∀ x, (B x).y = y x)
    (hP : ∀ x, ¬ (P (A x).x ∧ P (B x).x)) :
    (((l.map A ++ l.map B).filter (fun p => decide (P p.x))).map XY.y).Perm ((l.filter (fun x => decide (P (A x).x ∨ P (B x).x))).map y) := by
  induction l with
  | nil => exact List.Perm.refl _
  | cons x t ih =>
    simp only [List.filter_append, List.map_append, List.map_cons, List.filter_cons] at ih ⊢
    by_cases h1 : P (A x).x
    · have h2 : ¬ P (B x).x := fun h2 => hP x ⟨h1, h2⟩
      simp only [h1, h2, decide_true, if_true, decide_false, Bool.false_eq_true, if_false, List.map_cons, hA, List.cons_append, true_or]
      exact ih.cons _
    · by_cases h2 : P (B x).x
      · simp only [h1, h2, decide_true, if_true, decide_false, Bool.false_eq_true, if_false, List.map_cons, hB, or_true]
        exact List.perm_middle.trans (ih.cons _)
      · simp only [h1, h2, decide_false, Bool.false_eq_true, if_false, or_self]
        exact ih

/-- C142: with fewer than 20 observations, or with `nobin`, there are no binned points. -/
theorem C142_none (nobin : Bool) (n : Nat) (data : List FoldPoint) (h : nobin = true ∨ n < 20) : foldBins nobin n data = [] := by
  unfold foldBins
  rw [if_pos]
  rcases h with h | h <;> simp [h]

/-- A part of an interval shorter than two periods cannot contain both copies of a point. -/
theorem part_one_copy {lo hi x : ℝ} {i : Nat} (h : hi - lo < 2) : ¬ (InPart lo hi 25 i (x - 1) ∧ InPart lo hi 25 i x) := by
  rintro ⟨⟨h1, _⟩, h2, h3⟩
  push_cast at h1 h3
  rcases h3 with h3 | ⟨h3, h4⟩
  · have : lo + (hi - lo) * (i + 1) / 25 = lo + (hi - lo) * i / 25 + (hi - lo) / 25 := by ring
    linarith
  · have hi' : (i : ℝ) = 24 := by
      have : i = 24 := by omega
      exact_mod_cast this
    rw [hi'] at h1
    linarith

open Classical in
/-- C142: with at least 20 observations the panel has one binned point for each of 25 equal parts of the range of the phases in which at least three observations lie. It is in the middle
of the part, at the mean of the velocities of these observations, with their standard error. Every observation is counted once in it, although it is drawn twice. -/
theorem C142_bins_partial (dflt : ℝ) (drive : Drive) (tb : ℝ) (s : VState ℝ) (Ls : List RVLike) (h : Likes s Ls) (dv : RVLike → List String) (dc : RVLike → String → ℝ) (hd : ∀ L ∈ Ls, PlainDecorr s.params L (dv L) (dc L))
    (hn : (Ls.map RVLike.suffix).Nodup) (a : PlotArgs) (f : OrbitFig) (hf : orbitInit dflt drive tb s Ls a = .ok f)
    (orb : Nat → Synth) (ho : Elements s.params orb) (v : Nat → ℝ → ℝ) (hv : ∀ m, IsPlanet s.params m → ∀ x ∈ allObs Ls, drive x.2.t (orb m) = some (v m x.2.t))
    (γ : RVLike → ℝ) (hγ : ∀ L ∈ Ls, readPar f.st (.inst .gamma L.suffix) = .ok (γ L)) (n : Nat) (hpl : IsPlanet s.params n) (hper : (orb n).per ≠ 0)
    (hl : Bool) (p : FoldPanel) (hp : phasefold drive tb f hl n = .ok p) (hbin : a.nobin = false) (h20 : 20 ≤ (allObs Ls).length) :
    let φ : RVLike × Obs → ℝ := fun x => orbPhase (ephemeris s.params orb n) (orb n).per x.2.t
    let dat : RVLike × Obs → ℝ := fun x => x.2.y - γ x.1 - decorrTerm x.1 (dv x.1) (dc x.1) x.2 - ∑ m ∈ (Finset.Icc 1 s.params.numPlanets).erase n, v m x.2.t - trendTerm s.params tb x.2.t
    ∃ lo hi, (∃ x ∈ allObs Ls, lo = φ x - 1) ∧ (∃ x ∈ allObs Ls, hi = φ x) ∧ (∀ x ∈ allObs Ls, lo ≤ φ x - 1 ∧ φ x ≤ hi) ∧
      List.Pairwise (fun b c => b.t < c.t) p.bins ∧
      ∀ b, b ∈ p.bins ↔ ∃ i T, i < 25 ∧ T = (allObs Ls).filter (fun x => decide (InPart lo hi 25 i (φ x - 1) ∨ InPart lo hi 25 i (φ x))) ∧ 3 ≤ T.length ∧
        b.t = lo + (hi - lo) * (i + 1 / 2) / 25 ∧ b.dat = meanReal (T.map dat) ∧ b.err = stdErrReal (T.map dat) := by
  intro φ dat
  obtain ⟨_, hdata, hbins, _⟩ := phasefold_inv dflt drive tb s Ls h dv dc hd hn a f hf orb ho v hv γ hγ n hpl hper hl p hp
  have hpts : p.data.filterMap FoldPoint.shifted = (allObs Ls).map (fun x => ⟨φ x, dat x⟩) ++ (allObs Ls).map (fun x => ⟨φ x + 1, dat x⟩) := by
    rw [hdata, List.filterMap_append, List.filterMap_map, List.filterMap_map]
    have e : ∀ (g : RVLike × Obs → XY), (allObs Ls).map g = (allObs Ls).filterMap (fun x => some (g x)) := fun g => by rw [List.filterMap_eq_map']
    rw [e, e]
    congr 1
    apply List.filterMap_congr
    intro x _
    simp only [Function.comp, FoldPoint.shifted, sub_add_cancel]
    rfl
  unfold foldBins at hbins
  rw [if_neg (by simp [hbin]; omega), hpts] at hbins
  have hne : allObs Ls ≠ [] := by intro hc; rw [hc] at h20; simp at h20
  have hφ : ∀ x, 0 ≤ φ x ∧ φ x < 1 := fun x => ⟨Int.fract_nonneg _, Int.fract_lt_one _⟩
  set pts := (allObs Ls).map (fun x => (⟨φ x, dat x⟩ : XY)) ++ (allObs Ls).map (fun x => ⟨φ x + 1, dat x⟩) with hptsd
  have hptne : pts ≠ [] := by rw [hptsd]; simp [hne]
  have hmem1 : ∀ x ∈ allObs Ls, (⟨φ x, dat x⟩ : XY) ∈ pts := fun x hx => List.mem_append.2 (.inl (List.mem_map.2 ⟨x, hx, rfl⟩))
  have hmem2 : ∀ x ∈ allObs Ls, (⟨φ x + 1, dat x⟩ : XY) ∈ pts := fun x hx => List.mem_append.2 (.inr (List.mem_map.2 ⟨x, hx, rfl⟩))
  have hcase : ∀ q ∈ pts, ∃ x ∈ allObs Ls, q.x = φ x ∨ q.x = φ x + 1 := by
    intro q hq
    rcases List.mem_append.1 hq with hq | hq
    · obtain ⟨x, hx, rfl⟩ := List.mem_map.1 hq; exact ⟨x, hx, .inl rfl⟩
    · obtain ⟨x, hx, rfl⟩ := List.mem_map.1 hq; exact ⟨x, hx, .inr rfl⟩
  obtain ⟨lo, hi, hr, _, hpw, hb⟩ := C134_shown_partial pts hptne 25 (by norm_num)
  obtain ⟨x0, hx0⟩ := List.exists_mem_of_ne_nil _ hne
  obtain ⟨A, B, ⟨qa, hqa, hqa'⟩, ⟨qb, hqb, hqb'⟩, hall, hor⟩ := hr
  obtain ⟨hlt, rfl, rfl⟩ : A < B ∧ lo = A ∧ hi = B := by
    rcases hor with hor | ⟨hAB, _, _⟩
    · exact hor
    · have h1 := (hall _ (hmem1 x0 hx0)).1
      have h2 := (hall _ (hmem2 x0 hx0)).2
      simp only at h1 h2
      linarith
  have hlo : ∃ x ∈ allObs Ls, lo - 1 = φ x - 1 := by
    obtain ⟨x, hx, hq | hq⟩ := hcase qa hqa
    · exact ⟨x, hx, by linarith⟩
    · have := (hall _ (hmem1 x hx)).1
      simp only at this
      linarith
  have hhi : ∃ x ∈ allObs Ls, hi - 1 = φ x := by
    obtain ⟨x, hx, hq | hq⟩ := hcase qb hqb
    · have := (hall _ (hmem2 x hx)).2
      simp only at this
      linarith
    · exact ⟨x, hx, by linarith⟩
  have hlo0 : 0 ≤ lo := by obtain ⟨x, _, hx⟩ := hlo; linarith [(hφ x).1]
  have hhi2 : hi < 2 := by obtain ⟨x, _, hx⟩ := hhi; linarith [(hφ x).2]
  refine ⟨lo - 1, hi - 1, hlo, hhi, ?_, ?_, ?_⟩
  · intro x hx
    have h1 := (hall _ (hmem1 x hx)).1
    have h2 := (hall _ (hmem2 x hx)).2
    simp only at h1 h2
    exact ⟨by linarith, by linarith⟩
  · rw [hbins, List.pairwise_map]
    exact hpw.imp (fun hh => by simpa using hh)
  · have hpart : ∀ i, ((partOf pts lo hi 25 i).map XY.y).Perm (((allObs Ls).filter (fun x => decide (InPart (lo - 1) (hi - 1) 25 i (φ x - 1) ∨ InPart (lo - 1) (hi - 1) 25 i (φ x)))).map dat) := by
      intro i
      have := two_copies_part (allObs Ls) (fun x => (⟨φ x, dat x⟩ : XY)) (fun x => ⟨φ x + 1, dat x⟩) dat (fun z => InPart lo hi 25 i z) (fun _ => rfl) (fun _ => rfl) (by
        intro x hx
        rw [inPart_shift lo hi, inPart_shift lo hi] at hx
        simp only [add_sub_cancel_right] at hx
        exact part_one_copy (by linarith) hx)
      have e : ∀ x, (InPart lo hi 25 i (φ x) ∨ InPart lo hi 25 i (φ x + 1)) ↔ (InPart (lo - 1) (hi - 1) 25 i (φ x - 1) ∨ InPart (lo - 1) (hi - 1) 25 i (φ x)) := by
        intro x
        rw [inPart_shift lo hi 25 i (φ x), inPart_shift lo hi 25 i (φ x + 1), add_sub_cancel_right]
      simp only [e] at this
      exact this
    have hlen : ∀ i, (partOf pts lo hi 25 i).length = ((allObs Ls).filter (fun x => decide (InPart (lo - 1) (hi - 1) 25 i (φ x - 1) ∨ InPart (lo - 1) (hi - 1) 25 i (φ x)))).length := by
      intro i
      simpa using (hpart i).length_eq
    have hmid : ∀ i : Nat, 0 < lo + (hi - lo) * ((i : ℝ) + 1 / 2) / 25 := by
      intro i
      have : 0 < (hi - lo) * ((i : ℝ) + 1 / 2) / 25 := by
        apply div_pos (mul_pos (by linarith) (by positivity)) (by norm_num)
      linarith
    intro b
    rw [hbins]
    constructor
    · intro hbm
      obtain ⟨c, hcm, rfl⟩ := List.mem_map.1 hbm
      obtain ⟨i, hi25, h3, _, hs⟩ := (hb c).1 hcm
      refine ⟨i, _, hi25, rfl, by rw [← hlen]; exact h3, ?_, ?_, ?_⟩
      · have := hs.mid
        simp only
        rw [this]
        push_cast
        ring
      · simp only
        rw [hs.dat, meanY_eq, meanReal_perm (hpart i)]
      · simp only
        rw [hs.err, stdErrY_eq, stdErrReal_perm (hpart i)]
    · rintro ⟨i, T, hi25, rfl, h3, ht, hdt, her⟩
      refine List.mem_map.2 ⟨⟨lo + (hi - lo) * (i + 1 / 2) / 25, b.dat, b.err⟩, (hb _).2 ⟨i, hi25, by rw [hlen]; exact h3, by push_cast; exact hmid i, ?_, ?_, ?_⟩, ?_⟩
      · push_cast; rfl
      · simp only
        rw [hdt, meanY_eq, meanReal_perm (hpart i)]
      · simp only
        rw [her, stdErrY_eq, stdErrReal_perm (hpart i)]
      · obtain ⟨t, d, e⟩ := b
        simp only at ht ⊢
        congr 1
        rw [ht]; ring

/-! ### Non-vacuity -/

theorem allObs_one (L : RVLike) : allObs [L] = L.obs.map (fun o => (L, o)) := by simp [allObs]

/-- An observation at time 0. -/
noncomputable def obsZero : Obs := { t := 0, y := 3, err := 1 }

/-- A forward model whose velocities are numbers and vary over the orbit. -/
noncomputable def cosDrive : Drive := driveOf (fun M _ => some M) (fun _ _ k E => k * cos E)

theorem cosDrive_some (t : ℝ) : ∃ v, cosDrive t ⟨1 / 2, 1 / 2, 1 / 2, 1 / 2, 1 / 2⟩ = some v := by
  unfold cosDrive driveOf rvDrive
  simp only
  rw [if_neg (by norm_num)]
  exact ⟨_, rfl⟩

/-- The figure and the panel of its planet, for one or more observations at time 0. -/
theorem panelWitness (k : Nat) (hk : k ≠ 0) (a : PlotArgs) (hl : Bool) : ∃ (s : VState ℝ) (L : RVLike) (f : OrbitFig) (orb : Nat → Synth) (v : Nat → ℝ → ℝ) (g : RVLike → ℝ) (p : FoldPanel), Likes s [L] ∧ L.obs = List.replicate k obsZero ∧ PlainDecorr s.params L ["x"] (fun _ => 7) ∧
    orbitInit 0 cosDrive 0 s [L] a = .ok f ∧ Elements s.params orb ∧ (∀ m, IsPlanet s.params m → ∀ x ∈ allObs [L], cosDrive x.2.t (orb m) = some (v m x.2.t)) ∧
    (∀ M ∈ [L], readPar f.st (.inst .gamma M.suffix) = .ok (g M)) ∧ IsPlanet s.params 1 ∧ 0 < (orb 1).per ∧ phasefold cosDrive 0 f hl 1 = .ok p ∧
    orbPhase (ephemeris s.params orb 1) (orb 1).per 0 = 0 := by
  obtain ⟨s, L, f, orb, h1, h2, h3, h4, h5, h6, h7, h8, h9, g, hg⟩ := figWitness (List.replicate k obsZero) (by simp [hk]) cosDrive 0 a
  choose v hv using cosDrive_some
  have hv' : ∀ m, IsPlanet s.params m → ∀ x ∈ allObs [L], cosDrive x.2.t (orb m) = some (v x.2.t) := by
    intro m hm x _
    have : m = 1 := by have := hm.1; have := hm.2; omega
    rw [this, h8, hv]
  have hper : 0 < (orb 1).per := by rw [h8]; norm_num
  have hp : ∃ p, phasefold cosDrive 0 f hl 1 = .ok p := by
    cases hl with
    | false =>
      obtain ⟨p, hp, _⟩ := C141_panel_partial 0 cosDrive 0 s [L] h1 (fun _ => ["x"]) (fun _ _ => 7) (by simpa using h3) (by simp) a f h4 orb h5 (fun _ => v) hv' (fun _ => g) (by simpa using hg) 1 h6 hper.ne'
      exact ⟨p, hp⟩
    | true =>
      obtain ⟨p, _, _, _, _, hp, _⟩ := C141_highlight_partial 0 cosDrive 0 s [L] h1 (fun _ => ["x"]) (fun _ _ => 7) (by simpa using h3) (by simp) a f h4 orb h5 (fun _ => v) hv' (fun _ => g) (by simpa using hg) 1 h6 hper.ne'
        (by rw [allObs_one, h2]; simp [hk])
      exact ⟨p, hp⟩
  obtain ⟨p, hp⟩ := hp
  refine ⟨s, L, f, orb, fun _ => v, fun _ => g, p, h1, h2, h3, h4, h5, hv', by simpa using hg, h6, hper, hp, ?_⟩
  rw [h9, h8]
  unfold orbPhase
  norm_num

theorem fig_grid (dflt : ℝ) (drive : Drive) (tb : ℝ) (s : VState ℝ) (Ls : List RVLike) (h : Likes s Ls) (dv : RVLike → List String) (dc : RVLike → String → ℝ) (hd : ∀ L ∈ Ls, PlainDecorr s.params L (dv L) (dc L))
    (hn : (Ls.map RVLike.suffix).Nodup) (a : PlotArgs) (f : OrbitFig) (hf : orbitInit dflt drive tb s Ls a = .ok f) :
    ∃ longp g n, 0 < n ∧ gridOf a ((allObs Ls).map (fun x => x.2.t)) longp = .ok g ∧ f.rvmodt = linspace g.2.1 g.2.2 n := by
  obtain ⟨s1, longp, gr, _, _, _, _, _, _, _, _, _, k9, _, k11⟩ := orbitInit_fig dflt drive tb s Ls h dv dc hd hn a f hf
  exact ⟨longp, gr, if a.saveplot then 10000 else 2000, by split <;> norm_num, k9, by rw [k11]; rfl⟩

/-- Non-vacuity of C141: a panel with one observation, a curve that passes at its phase, and its ring. -/
example : ∃ s L f p, Likes s [L] ∧ orbitInit 0 cosDrive 0 s [L] {} = .ok f ∧ phasefold cosDrive 0 f true 1 = .ok p ∧ (∃ u y e tel, (some 0, some u) ∈ p.curve ∧ p.data[1]? = some ⟨some 0, some y, e, tel⟩ ∧
    f.rawresid[0]? = some (some (y - u))) ∧ ∃ φ y, p.highlight = some (some φ, some y) := by
  obtain ⟨s, L, f, orb, v, g, p, h1, h2, h3, h4, h5, h6, h7, h8, h9, h10, h11⟩ := panelWitness 1 (by decide) {} true
  have hone : allObs [L] = [(L, obsZero)] := by rw [allObs_one, h2]; rfl
  obtain ⟨e1, e2, _, e4⟩ := phasefold_inv 0 cosDrive 0 s [L] h1 (fun _ => ["x"]) (fun _ _ => 7) (by simpa using h3) (by simp) {} f h4 orb h5 v h6 g h7 1 h8 h9.ne' true p h10
  rw [hone] at e2
  have h0 : (0 : ℝ) ∈ f.rvmodt := by
    obtain ⟨longp, gr, n, hn0, k9, k4⟩ := fig_grid 0 cosDrive 0 s [L] h1 (fun _ => ["x"]) (fun _ _ => 7) (by simpa using h3) (by simp) {} f h4
    rw [hone] at k9
    have k9' := Except.ok.inj k9
    have : gr.2.1 = 0 := by rw [← k9']; simp [obsZero]
    rw [k4, this]
    unfold linspace
    exact List.mem_map.2 ⟨0, List.mem_range.2 hn0, by simp⟩
  have hmc : (some 0, cosDrive 0 (orb 1)) ∈ p.curve := by
    rw [e1]
    refine List.mem_append.2 (.inr (List.mem_map.2 ⟨0, h0, ?_⟩))
    rw [h11]
  have hd0 := h6 1 h8 (L, obsZero) (by rw [hone]; simp)
  rw [show (L, obsZero).2.t = 0 from rfl] at hd0
  rw [hd0] at hmc
  obtain ⟨q, hq, hq'⟩ := e4 rfl
  obtain ⟨p', i, x, D, φ, c1, c2, c3, c4, c5, c6, c7, c8⟩ := C141_highlight_partial 0 cosDrive 0 s [L] h1 (fun _ => ["x"]) (fun _ _ => 7) (by simpa using h3) (by simp) {} f h4 orb h5 v h6 g h7 1 h8 h9.ne' (by rw [hone]; simp)
  rw [h10] at c1; cases c1
  have hdat := e2
  simp only [List.map_cons, List.map_nil, List.singleton_append, show obsZero.t = 0 from rfl, h11] at hdat
  refine ⟨s, L, f, p, h1, h4, h10, ⟨v 1 0, _, _, _, hmc, by rw [hdat]; rfl, ?_⟩, φ, ?_⟩
  · exact (C141_distance_partial 0 _ _ 0 s [L] h1 (fun _ => ["x"]) (fun _ _ => 7) (by simpa using h3) (by simp) {} f h4 orb h5 v h6 g h7 1 h8 h9 true p h10 0 (L, obsZero) (by rw [hone]; rfl) 0 _ (v 1 0) hmc
      _ (.inr (by rw [hdat, hone]; rfl)) rfl rfl).2
  · have hv' : ∃ y, D.vel = some y := by
      rw [hdat] at c4
      have hi : i = 0 := by
        have := (List.getElem?_eq_some_iff.1 c2).1
        rw [hone] at this
        simpa using this
      subst hi
      rcases c4 with c4 | c4
      · cases Option.some.inj c4; exact ⟨_, rfl⟩
      · rw [hone] at c4; cases Option.some.inj c4; exact ⟨_, rfl⟩
    obtain ⟨y, hy⟩ := hv'
    exact ⟨y, by rw [c8, c5, hy]⟩

/-- Non-vacuity of C142: twenty observations give binned points. -/
example : ∃ s L f p b, Likes s [L] ∧ orbitInit 0 cosDrive 0 s [L] {} = .ok f ∧ phasefold cosDrive 0 f false 1 = .ok p ∧ b ∈ p.bins ∧ b.t = -49 / 50 := by
  obtain ⟨s, L, f, orb, v, g, p, h1, h2, h3, h4, h5, h6, h7, h8, h9, h10, h11⟩ := panelWitness 20 (by decide) {} false
  have hall : ∀ x ∈ allObs [L], x = (L, obsZero) := by
    intro x hx
    rw [allObs_one, h2] at hx
    simpa using hx
  have hlen : (allObs [L]).length = 20 := by rw [allObs_one, h2]; simp
  obtain ⟨lo, hi, ⟨x, hx, hlo⟩, ⟨y, hy, hhi⟩, _, _, hb⟩ := C142_bins_partial 0 cosDrive 0 s [L] h1 (fun _ => ["x"]) (fun _ _ => 7) (by simpa using h3) (by simp) {} f h4 orb h5 v h6 g h7 1 h8 h9.ne' false p h10 rfl (by rw [hlen])
  simp only at hlo hhi hb
  rw [hall x hx, show (L, obsZero).2.t = 0 from rfl, h11] at hlo
  rw [hall y hy, show (L, obsZero).2.t = 0 from rfl, h11] at hhi
  rw [hlo, hhi] at hb
  refine ⟨s, L, f, p, ⟨_, _, _⟩, h1, h4, h10, (hb _).2 ⟨0, _, by norm_num, rfl, ?_, rfl, rfl, rfl⟩, by norm_num⟩
  rw [List.filter_eq_self.2, hlen]
  · norm_num
  · intro z hz
    simp only [decide_eq_true_eq]
    left
    rw [hall z hz, show (L, obsZero).2.t = 0 from rfl, h11]
    unfold InPart
    norm_num

end Radvel
