import Verif.Lemmas.RVLikeData
import Verif.Props.Params

/-!
# C26-C33: white-noise likelihoods, composites, information criteria

`gaussianPDFReal μ v x` is Mathlib's normal density with mean `μ` and variance `v`.
-/

namespace Radvel
open Real ProbabilityTheory

/-- The model has the values `m` at the observation times. -/
def ModelIs (mod : Curve) (L : RVLike) (s : VState ℝ) (m : ℝ → ℝ) : Prop := ∀ o ∈ L.obs, mod s o.t = .ok (some (m o.t))

/-- The joint density of independent normal velocities with means `m t + γ` and variances `err² + jit²`. -/
noncomputable def whiteDensity (obs : List Obs) (m : ℝ → ℝ) (jit γ : ℝ) : ℝ :=
  (obs.map (fun o => gaussianPDFReal (m o.t + γ) (o.err ^ 2 + jit ^ 2).toNNReal o.y)).prod

theorem gaussian_shift (μ x : ℝ) (v : NNReal) : gaussianPDFReal μ v x = gaussianPDFReal 0 v (x - μ) := by
  simp [gaussianPDFReal]

theorem whiteDensity_eq (obs : List Obs) (m : ℝ → ℝ) (jit γ : ℝ) :
    whiteDensity obs m jit γ = (obs.map (fun o => gaussianPDFReal 0 (o.var jit).toNNReal ((o.y - m o.t) - γ))).prod := by
  unfold whiteDensity
  congr 1
  apply List.map_congr_left
  intro o _
  rw [gaussian_shift]
  congr 1
  ring

theorem var_pos {o : Obs} {jit : ℝ} (h : o.err ≠ 0 ∨ jit ≠ 0) : 0 < o.var jit := by
  unfold Obs.var
  rcases h with h | h
  · have := sq_pos_of_ne_zero h; positivity
  · have := sq_pos_of_ne_zero h; positivity

theorem decFun_nil {L : RVLike} (h : L.decParams = []) (s : VState ℝ) : L.decFun s = .ok (fun _ => 0) := by
  unfold RVLike.decFun; rw [h]; rfl

/-! ## C26 -/

/-- C26: without decorrelation and with an ordinary gamma, `exp(logprob)` is the product of the normal densities of the velocities with variance
`errvel² + jit²`; the state is untouched. -/
theorem C26_product (mod : Curve) (L : RVLike) (s : VState ℝ) (hs : Built s) (hL : L.On s) (m : ℝ → ℝ) (hm : ModelIs mod L s m)
    (γ jit : ℝ) (hg : readPar s (.inst .gamma L.suffix) = .ok γ) (hj : readPar s (.inst .jit L.suffix) = .ok jit)
    (hna : ¬ AnalyticGamma s L.gammaIdx) (hdec : L.decParams = []) (hv : ∀ o ∈ L.obs, o.err ≠ 0 ∨ jit ≠ 0) :
    ∃ l, L.logprob mod s = .ok (s, .fin l) ∧ exp l = whiteDensity L.obs m jit γ := by
  obtain ⟨g, j, h1, h2, _, h4⟩ := On.rows hs hL
  have hana : g.analytic = false := by simpa using fun h => hna (h4.2 h)
  simp only [readPar, hL.gamma, h1, Except.ok.injEq] at hg
  simp only [readPar, hL.jit, h2, Except.ok.injEq] at hj
  subst hg; subst hj
  rw [logprob_eq mod L s (fun t => some (m t)) hm g j h1 h2, decFun_nil hdec]
  have hw : gammaWritten L (fun t => some (m t)) s g j = s := by simp [gammaWritten, hana]
  have hu : gammaUsed L (fun t => some (m t)) g j = g.value := by simp [gammaUsed, hana]
  refine ⟨(L.obs.map (fun o => log (gaussianPDFReal 0 (o.var j.value).toNNReal ((o.y - m o.t) - g.value)))).sum, ?_, ?_⟩
  · simp only [hw]
    congr 2
    unfold likeValue
    simp only [hana, hu, Option.map_some]
    rw [loglikeJitter_fin L.obs (fun o => o.y - g.value - m o.t - 0) (fun o => o.var j.value) (fun o ho => var_pos (hv o ho))]
    simp only [Bool.false_eq_true, if_false]
    congr 2
    apply List.map_congr_left
    intro o _
    congr 2
    ring
  · rw [exp_sum_log, whiteDensity_eq]
    intro o ho
    exact gaussianPDFReal_pos _ _ _ (by simpa using var_pos (hv o ho))

/-- C26 with decorrelation: the same for the residuals that `residuals()` returns. -/
theorem C26_residuals (mod : Curve) (L : RVLike) (s s' : VState ℝ) (hs : Built s) (hL : L.On s) (m : ℝ → ℝ) (hm : ModelIs mod L s m)
    (jit : ℝ) (hj : readPar s (.inst .jit L.suffix) = .ok jit) (hna : ¬ AnalyticGamma s L.gammaIdx)
    (hv : ∀ o ∈ L.obs, o.err ≠ 0 ∨ jit ≠ 0) (r : Obs → ℝ) (hr : L.residuals mod s = .ok (s', L.obs.map (fun o => some (r o)))) :
    ∃ l, L.logprob mod s = .ok (s, .fin l) ∧
      exp l = (L.obs.map (fun o => gaussianPDFReal 0 (o.err ^ 2 + jit ^ 2).toNNReal (r o))).prod := by
  obtain ⟨g, j, h1, h2, _, h4⟩ := On.rows hs hL
  have hana : g.analytic = false := by simpa using fun h => hna (h4.2 h)
  simp only [readPar, hL.jit, h2, Except.ok.injEq] at hj
  subst hj
  have hw : gammaWritten L (fun t => some (m t)) s g j = s := by simp [gammaWritten, hana]
  rw [residuals_eq mod L s (fun t => some (m t)) hm g j h1 h2, hw] at hr
  rw [logprob_eq mod L s (fun t => some (m t)) hm g j h1 h2, hw]
  cases hd : L.decFun s with
  | error e => rw [hd] at hr; cases hr
  | ok D =>
    rw [hd] at hr
    simp only [Except.ok.injEq, Prod.mk.injEq] at hr
    refine ⟨_, ?_, exp_sum_log L.obs (fun o => gaussianPDFReal 0 (o.var j.value).toNNReal (r o)) (fun o ho =>
      gaussianPDFReal_pos _ _ _ (by simpa using var_pos (hv o ho)))⟩
    simp only
    congr 2
    unfold likeValue
    simp only [hana, hr.2, Bool.false_eq_true, if_false]
    rw [loglikeJitter_fin L.obs r (fun o => o.var j.value) (fun o ho => var_pos (hv o ho))]

/-- C26: the sign of the jitter is irrelevant, for every likelihood (also with decorrelation or analytic gamma). -/
theorem C26_jitter_sign (mod : Curve) (hmod : mod.Orbital) (L : RVLike) (s : VState ℝ) (hs : Built s) (hL : L.On s) (j : Row ℝ)
    (hj : s.rows[L.jitIdx]? = some j) :
    LikeEval.value (L.logprob mod) { s with rows := s.rows.set L.jitIdx { j with value := -j.value } } = LikeEval.value (L.logprob mod) s := by
  obtain ⟨g, j', h1, h2, h3, h4⟩ := On.rows hs hL
  rw [hj] at h2; cases h2
  have hlt : L.jitIdx < s.rows.length := (List.getElem?_eq_some_iff.1 hj).1
  have hjm := (hs.inv.1.ext _ _ rfl rfl hL.jit)
  have hne : L.jitIdx ≠ L.gammaIdx := by
    intro h
    have hg := hL.gamma
    rw [← h] at hg
    have := hs.inv.1.extInj _ _ _ rfl rfl rfl rfl hg hL.jit
    simp at this
  set s2 : VState ℝ := { s with rows := s.rows.set L.jitIdx { j with value := -j.value } } with hs2
  have hmods : ∀ t, mod s2 t = mod s t := hmod s s2 hs rfl rfl (by simp [hs2]) (fun i hi => by
    have : L.jitIdx ≠ i := by omega
    simp [hs2, this])
  have h1' : s2.rows[L.gammaIdx]? = some g := by simp [hs2, hne, h1]
  have h2' : s2.rows[L.jitIdx]? = some { j with value := -j.value } := by simp [hs2, hlt]
  have hvar : ∀ o : Obs, o.var (-j.value) = o.var j.value := fun o => by simp [Obs.var]
  rcases points_cases mod L s with ⟨m, hm⟩ | ⟨e, he⟩
  · have hm' : ∀ o ∈ L.obs, mod s2 o.t = .ok (m o.t) := fun o ho => by rw [hmods]; exact hm o ho
    unfold LikeEval.value
    rw [logprob_eq mod L s m hm g j h1 hj, logprob_eq mod L s2 m hm' g _ h1' h2']
    have hu : gammaUsed L m g { j with value := -j.value } = gammaUsed L m g j := by
      unfold gammaUsed weightedOffset; simp only [hvar]
    have hl : ∀ D, likeValue L m g { j with value := -j.value } D = likeValue L m g j D := by
      intro D; unfold likeValue; simp only [hu, hvar]
    have hd : L.decFun (gammaWritten L m s2 g { j with value := -j.value }) = L.decFun (gammaWritten L m s g j) := by
      apply decFun_congr
      intro p hp
      obtain ⟨i, hi⟩ := hL.dec p hp
      have hij : L.jitIdx ≠ i := by
        intro h
        have := hs.inv.1.extInj _ _ _ rfl rfl rfl rfl hL.jit (h ▸ hi)
        simp at this
      by_cases ha : g.analytic = true
      · simp only [readPar, gammaWritten, ha, if_true, hu, hs2, hi, List.getElem?_set, List.length_set, hij, if_false]
      · simp only [readPar, gammaWritten, ha, if_false, hs2, hi, List.getElem?_set, hij, Bool.false_eq_true]
    rw [hd]
    cases L.decFun (gammaWritten L m s g j) with
    | error e => rfl
    | ok D => simp only [hl]
  · have he' : L.points mod s2 = .error e := by rw [points_congr hmods]; exact he
    unfold LikeEval.value
    simp only [RVLike.logprob, RVLike.residuals, readRow, hj, h2', he, he', bind, Except.bind]

/-- C26, the remaining case: a vanishing total variance gives nan, never a number. -/
theorem C26_zero_variance (mod : Curve) (L : RVLike) (s : VState ℝ) (hs : Built s) (hL : L.On s) (m : ℝ → ℝ) (hm : ModelIs mod L s m)
    (jit : ℝ) (hj : readPar s (.inst .jit L.suffix) = .ok jit) (hv : ∃ o ∈ L.obs, o.err = 0 ∧ jit = 0) :
    (∃ e, L.logprob mod s = .error e) ∨ ∃ s', L.logprob mod s = .ok (s', .nan) := by
  obtain ⟨g, j, h1, h2, _, h4⟩ := On.rows hs hL
  simp only [readPar, hL.jit, h2, Except.ok.injEq] at hj
  subst hj
  rw [logprob_eq mod L s (fun t => some (m t)) hm g j h1 h2]
  cases L.decFun (gammaWritten L (fun t => some (m t)) s g j) with
  | error e => exact Or.inl ⟨e, rfl⟩
  | ok D =>
    refine Or.inr ⟨gammaWritten L (fun t => some (m t)) s g j, ?_⟩
    simp only
    congr 2
    obtain ⟨o, ho, h5, h6⟩ := hv
    unfold likeValue
    rw [loglikeJitter_nan _ (L.obs.map (fun o => o.var j.value)) (Or.inl ⟨o.var j.value, List.mem_map.2 ⟨o, ho, rfl⟩, by simp [Obs.var, h5, h6]⟩)]
    split <;> simp

/-! ## C27 -/

theorem weightedOffset_fin (obs : List Obs) (m : ℝ → ℝ) (jit : ℝ) (hne : obs ≠ []) (hv : ∀ o ∈ obs, 0 < o.var jit) :
    weightedOffset (obs.map (fun o => (o, some (m o.t)))) jit * (obs.map (fun o => 1 / o.var jit)).sum = (obs.map (fun o => (o.y - m o.t) / o.var jit)).sum := by
  classical
  unfold weightedOffset
  have h : ¬ (obs.map (fun o => (o, some (m o.t))) = [] ∨ (∃ p ∈ obs.map (fun o => (o, some (m o.t))), p.1.var jit = 0) ∨
      ∃ p ∈ obs.map (fun o => (o, some (m o.t))), p.2 = none) := by
    rintro (h | ⟨p, hp, h⟩ | ⟨p, hp, h⟩)
    · simp at h; exact hne h
    · obtain ⟨o, ho, rfl⟩ := List.mem_map.1 hp
      exact (hv o ho).ne' h
    · obtain ⟨o, ho, rfl⟩ := List.mem_map.1 hp
      cases h
  rw [if_neg h]
  simp only [List.map_map, Function.comp_def, Option.getD_some]
  exact div_mul_cancel₀ _ (sum_inv_pos obs _ hv hne).ne'

/-- The integral over `γ` of a product of normal densities with common shift `γ`, and where it is maximal. -/
theorem marginal_formula (obs : List Obs) (a : Obs → ℝ) (v : Obs → ℝ) (hv : ∀ o ∈ obs, 0 < v o) (z : ℝ)
    (hz : z * (obs.map (fun o => 1 / v o)).sum = (obs.map (fun o => a o / v o)).sum) :
    (∫ x : ℝ, (obs.map (fun o => gaussianPDFReal 0 (v o).toNNReal (a o - x))).prod)
      = (obs.map (fun o => gaussianPDFReal 0 (v o).toNNReal (a o - z))).prod * √(2 * π * (1 / (obs.map (fun o => 1 / v o)).sum)) ∧
    ∀ x, (obs.map (fun o => gaussianPDFReal 0 (v o).toNNReal (a o - x))).prod
      = (obs.map (fun o => gaussianPDFReal 0 (v o).toNNReal (a o - z))).prod * exp (-((x - z) ^ 2 * (obs.map (fun o => 1 / v o)).sum) / 2) := by
  have key : ∀ x, (obs.map (fun o => gaussianPDFReal 0 (v o).toNNReal (a o - x))).prod
      = (obs.map (fun o => gaussianPDFReal 0 (v o).toNNReal (a o - z))).prod * exp (-((x - z) ^ 2 * (obs.map (fun o => 1 / v o)).sum) / 2) := by
    intro x
    rw [prod_gaussian obs a v hv, prod_gaussian obs a v hv, square_completed obs a v x z hz, mul_assoc, ← exp_add]
    congr 2
    ring
  refine ⟨?_, key⟩
  rw [funext key, MeasureTheory.integral_const_mul, gaussian_shift_integral]

/-- C27 in general: with a linear, fixed gamma, `exp(logprob)` is the integral over all gammas of the density of the velocities, times
`exp(-(Σ d/σ²)²/(2 Σ 1/σ²))`, where `d` is what decorrelation subtracts (`γ` in the residuals is the gamma that was written back). -/
theorem C27_marginal_general (mod : Curve) (L : RVLike) (s : VState ℝ) (hs : Built s) (hL : L.On s) (m : ℝ → ℝ) (hm : ModelIs mod L s m)
    (jit : ℝ) (hj : readPar s (.inst .jit L.suffix) = .ok jit) (ha : AnalyticGamma s L.gammaIdx)
    (hne : L.obs ≠ []) (hv : ∀ o ∈ L.obs, o.err ≠ 0 ∨ jit ≠ 0)
    (s' : VState ℝ) (d : Obs → ℝ) (γ : ℝ) (hg : readPar s' (.inst .gamma L.suffix) = .ok γ)
    (hr : L.residuals mod s = .ok (s', L.obs.map (fun o => some (o.y - γ - m o.t - d o)))) :
    ∃ l, L.logprob mod s = .ok (s', .fin l) ∧
      exp l = (∫ x : ℝ, whiteDensity (L.obs.map (fun o => { o with y := o.y - d o })) m jit x)
        * exp (-((L.obs.map (fun o => d o / (o.err ^ 2 + jit ^ 2))).sum ^ 2 / (2 * (L.obs.map (fun o => 1 / (o.err ^ 2 + jit ^ 2))).sum))) := by
  obtain ⟨g, j, h1, h2, _, h4⟩ := On.rows hs hL
  have hana : g.analytic = true := h4.1 ha
  simp only [readPar, hL.jit, h2, Except.ok.injEq] at hj
  subst hj
  have hvp : ∀ o ∈ L.obs, 0 < o.var j.value := fun o ho => var_pos (hv o ho)
  set M : ℝ → Option ℝ := fun t => some (m t) with hM
  rw [residuals_eq mod L s M hm g j h1 h2] at hr
  rw [logprob_eq mod L s M hm g j h1 h2]
  cases hd : L.decFun (gammaWritten L M s g j) with
  | error e => rw [hd] at hr; cases hr
  | ok D =>
    rw [hd] at hr
    simp only [Except.ok.injEq, Prod.mk.injEq] at hr
    obtain ⟨hr1, hr2⟩ := hr
    have hγ : γ = gammaUsed L M g j := by
      have hi : s'.indices = s.indices := by rw [← hr1]; exact (gammaWritten_agree hL M h1).indices
      simp only [readPar, hi, hL.gamma] at hg
      rw [← hr1, gammaWritten_row L M s g j h1] at hg
      simp at hg
      exact hg.symm
    have hz := weightedOffset_fin L.obs m j.value hne hvp
    have hzu : gammaUsed L M g j = weightedOffset (L.obs.map (fun o => (o, some (m o.t)))) j.value := by simp [gammaUsed, hana, hM]
    set S := (L.obs.map (fun o => 1 / o.var j.value)).sum with hS
    have hSpos : 0 < S := sum_inv_pos L.obs _ hvp hne
    set T := (L.obs.map (fun o => d o / o.var j.value)).sum with hT
    -- the true optimum
    have hz' : (γ - T / S) * S = (L.obs.map (fun o => ((o.y - d o) - m o.t) / o.var j.value)).sum := by
      have : (L.obs.map (fun o => ((o.y - d o) - m o.t) / o.var j.value)).sum
          = (L.obs.map (fun o => (o.y - m o.t) / o.var j.value)).sum - T := by
        rw [hT, ← list_sum_map_sub]
        congr 1
        apply List.map_congr_left
        intro o _
        ring
      rw [this, ← hz, hγ, hzu]
      field_simp
    obtain ⟨i1, i2⟩ := marginal_formula L.obs (fun o => (o.y - d o) - m o.t) (fun o => o.var j.value) hvp _ hz'
    refine ⟨(L.obs.map (fun o => log (gaussianPDFReal 0 (o.var j.value).toNNReal (o.y - γ - m o.t - d o)))).sum
      + log √(2 * π * (1 / S)), ?_, ?_⟩
    · simp only [hr1]
      congr 2
      unfold likeValue
      simp only [hana, if_true]
      rw [hr2, loglikeJitter_fin L.obs (fun o => o.y - γ - m o.t - d o) (fun o => o.var j.value) hvp]
      unfold marginalTerm
      have hz0 : ¬ ∃ v ∈ L.obs.map (fun o => o.var j.value), v = 0 := by
        rintro ⟨v, hv', rfl⟩
        obtain ⟨o, ho, h⟩ := List.mem_map.1 hv'
        exact (hvp o ho).ne' h
      rw [if_neg hz0, if_neg (by simpa using hne)]
      simp only [List.map_map, Function.comp_def]
      rw [Fl.log_of_pos (by rw [← hS]; positivity), Fl.fin_add_fin]
    · rw [exp_add, exp_log (by positivity), exp_sum_log _ _ (fun o ho => gaussianPDFReal_pos _ _ _ (by simpa using hvp o ho))]
      have e1 : (∫ x : ℝ, whiteDensity (L.obs.map (fun o => { o with y := o.y - d o })) m j.value x)
          = ∫ x : ℝ, (L.obs.map (fun o => gaussianPDFReal 0 (o.var j.value).toNNReal (((o.y - d o) - m o.t) - x))).prod := by
        congr 1
        funext x
        rw [whiteDensity_eq]
        simp only [List.map_map, Function.comp_def]
        rfl
      have e2 : (L.obs.map (fun o => gaussianPDFReal 0 (o.var j.value).toNNReal (o.y - γ - m o.t - d o))).prod
          = (L.obs.map (fun o => gaussianPDFReal 0 (o.var j.value).toNNReal (((o.y - d o) - m o.t) - γ))).prod := by
        congr 1
        apply List.map_congr_left
        intro o _
        congr 1
        ring
      rw [e1, i1, e2, i2 γ]
      have e3 : -((γ - (γ - T / S)) ^ 2 * S) / 2 = -(T ^ 2 / (2 * S)) := by
        field_simp
        ring
      have e4 : (L.obs.map (fun o => d o / (o.err ^ 2 + j.value ^ 2))).sum = T := rfl
      have e5 : (L.obs.map (fun o => 1 / (o.err ^ 2 + j.value ^ 2))).sum = S := rfl
      rw [e3, e4, e5]
      ring

/-- C27, provable part (missing: decorrelation): with a linear, fixed gamma and no decorrelation, `exp(logprob)` is exactly the integral of the ordinary likelihood
over gamma, and the gamma written back maximises the ordinary likelihood. -/
theorem C27_marginal_partial (mod : Curve) (L : RVLike) (s : VState ℝ) (hs : Built s) (hL : L.On s) (m : ℝ → ℝ) (hm : ModelIs mod L s m)
    (jit : ℝ) (hj : readPar s (.inst .jit L.suffix) = .ok jit) (ha : AnalyticGamma s L.gammaIdx)
    (hdec : L.decParams = []) (hne : L.obs ≠ []) (hv : ∀ o ∈ L.obs, o.err ≠ 0 ∨ jit ≠ 0) :
    ∃ s' l γ, L.logprob mod s = .ok (s', .fin l) ∧ exp l = (∫ x : ℝ, whiteDensity L.obs m jit x) ∧
      readPar s' (.inst .gamma L.suffix) = .ok γ ∧ ∀ x, whiteDensity L.obs m jit x ≤ whiteDensity L.obs m jit γ := by
  obtain ⟨g, j, h1, h2, _, h4⟩ := On.rows hs hL
  have hana : g.analytic = true := h4.1 ha
  have hj' := hj
  simp only [readPar, hL.jit, h2, Except.ok.injEq] at hj'
  subst hj'
  set M : ℝ → Option ℝ := fun t => some (m t) with hM
  have hr := residuals_eq mod L s M hm g j h1 h2
  rw [decFun_nil hdec] at hr
  have hγ : readPar (gammaWritten L M s g j) (.inst .gamma L.suffix) = .ok (gammaUsed L M g j) := by
    simp only [readPar, (gammaWritten_agree hL M h1).indices, hL.gamma, gammaWritten_row L M s g j h1]
  obtain ⟨l, e1, e2⟩ := C27_marginal_general mod L s hs hL m hm j.value hj ha hne hv (gammaWritten L M s g j) (fun _ => 0) (gammaUsed L M g j) hγ
    (by rw [hr]; rfl)
  refine ⟨_, l, _, e1, ?_, hγ, ?_⟩
  · rw [e2]
    simp
  · intro x
    have hvp : ∀ o ∈ L.obs, 0 < o.var j.value := fun o ho => var_pos (hv o ho)
    have hzu : gammaUsed L M g j = weightedOffset (L.obs.map (fun o => (o, some (m o.t)))) j.value := by simp [gammaUsed, hana, hM]
    have hz := weightedOffset_fin L.obs m j.value hne hvp
    rw [← hzu] at hz
    obtain ⟨_, i2⟩ := marginal_formula L.obs (fun o => o.y - m o.t) (fun o => o.var j.value) hvp _ hz
    rw [whiteDensity_eq, whiteDensity_eq, i2 x]
    have hpos : 0 ≤ (L.obs.map (fun o => gaussianPDFReal 0 (o.var j.value).toNNReal (o.y - m o.t - gammaUsed L M g j))).prod :=
      List.prod_nonneg (by
        intro y hy
        obtain ⟨o, _, rfl⟩ := List.mem_map.1 hy
        exact gaussianPDFReal_nonneg _ _ _)
    have hS := sum_inv_pos L.obs (fun o => o.var j.value) hvp hne
    apply mul_le_of_le_one_right hpos
    rw [exp_le_one_iff]
    have := mul_nonneg (sq_nonneg (x - gammaUsed L M g j)) hS.le
    linarith

/-- C27: the result does not depend on the stored gamma (with or without decorrelation). -/
theorem C27_stored (mod : Curve) (hmod : mod.Orbital) (L : RVLike) (s : VState ℝ) (hs : Built s) (hL : L.On s) (g : Row ℝ)
    (hg : s.rows[L.gammaIdx]? = some g) (ha : AnalyticGamma s L.gammaIdx) (c : ℝ) :
    LikeEval.value (L.logprob mod) { s with rows := s.rows.set L.gammaIdx { g with value := c } } = LikeEval.value (L.logprob mod) s := by
  have h : AgreeOff s { s with rows := s.rows.set L.gammaIdx { g with value := c } } := by
    refine ⟨rfl, rfl, rfl, SameFlags.set _ _ _ hg _, ?_⟩
    intro i hi
    have : L.gammaIdx ≠ i := by rintro rfl; exact hi ha
    simp [this]
  unfold LikeEval.value
  rcases logprob_frame hmod hs hL h with ⟨e, h1, h2, _⟩ | ⟨s1, s1', v, r, h1, h2, _⟩
  · rw [h1, h2]
  · rw [h1, h2]

/-- The rows of the decorrelation witnesses: gamma linear and fixed, no jitter, coefficient 1 for every decorrelation parameter, no trend. -/
def witnessRow : Key → Row ℝ
  | .inst .gamma _ => { value := 0, vary := false, scale := 0, linear := true }
  | .other _ => { value := 1, vary := true, scale := 0, linear := false }
  | _ => { value := 0, vary := false, scale := 0, linear := false }

/-- Two observations with different errors and one decorrelation variable `x` with the values 0 and 2. -/
def witnessObs : List Obs := [{ t := 0, y := 0, err := 1, dec := fun _ => .fin 0 }, { t := 1, y := 0, err := 2, dec := fun _ => .fin 2 }]

theorem RVLike.other_row {s : VState ℝ} {L : RVLike} (hs : Built s) (hL : L.On s) (row : Key → Row ℝ)
    (hr : ∀ k i, (k ∈ s.params.items.keys ∨ k = .dvdt ∨ k = .curv) → s.indices.get? k = some i → s.rows[i]? = some (row k)) :
    s.rows[L.gammaIdx]? = some (row (.inst .gamma L.suffix)) ∧ s.rows[L.jitIdx]? = some (row (.inst .jit L.suffix)) ∧
    ∀ p ∈ L.decParams, readPar s (.other p) = .ok (row (.other p)).value := by
  refine ⟨hr _ _ (.inl (hs.inv.1.ext _ _ rfl rfl hL.gamma).1) hL.gamma, hr _ _ (.inl (hs.inv.1.ext _ _ rfl rfl hL.jit).1) hL.jit, ?_⟩
  intro p hp
  obtain ⟨i, hi⟩ := hL.dec p hp
  simp only [readPar, hi, hr _ _ (.inl (hs.inv.1.ext _ _ rfl rfl hi).1) hi]

/-- C27 in full is false: with a decorrelation variable the gamma that is subtracted ignores the decorrelation terms, and `exp(logprob)` is not the marginal
likelihood. Witness: an `RVModel` without planets, two observations with errors 1 and 2, one variable, a reachable state. -/
theorem C27_decorrelation_violated (drive : Drive) (tb : ℝ) :
    ∃ (s s' : VState ℝ) (L : RVLike) (d : Obs → ℝ) (γ l : ℝ), Likes s [L] ∧ AnalyticGamma s L.gammaIdx ∧
      readPar s' (.inst .gamma L.suffix) = .ok γ ∧
      L.residuals (fun s t => modelCall drive tb s none t) s = .ok (s', L.obs.map (fun o => some (o.y - γ - 0 - d o))) ∧
      L.logprob (fun s t => modelCall drive tb s none t) s = .ok (s', .fin l) ∧
      exp l ≠ ∫ x : ℝ, whiteDensity (L.obs.map (fun o => { o with y := o.y - d o })) (fun _ => 0) 0 x := by
  obtain ⟨s, L, h1, h2, h3, h4, h5, h6, h7⟩ := flatLike witnessObs "" ["x"] [['x']] witnessRow
  obtain ⟨hb, hon⟩ := h1.built
  have hL := hon L (by simp)
  obtain ⟨r1, r2, r3⟩ := RVLike.other_row hb hL witnessRow h7
  set mod : Curve := fun s t => modelCall drive tb s none t with hmod
  have hm : ModelIs mod L s (fun _ => 0) := by
    intro o _
    show modelCall drive tb s none o.t = _
    rw [flat_model drive tb o.t s hb h2 witnessRow h7]
    simp [witnessRow]
  have ha : AnalyticGamma s L.gammaIdx := ⟨_, _, hL.gamma, r1, rfl, rfl⟩
  have hag := gammaWritten_agree hL (fun _ => some 0) (j := witnessRow (.inst .jit L.suffix)) r1
  have hres := residuals_eq mod L s (fun _ => some 0) hm _ _ r1 r2
  have hdec : L.decFun (gammaWritten L (fun _ => some 0) s (witnessRow (.inst .gamma L.suffix)) (witnessRow (.inst .jit L.suffix)))
      = .ok (fun o => (o.dec ['x']).toReal - 1) := by
    have hp : readPar s (.other "c1_x") = .ok 1 := by
      rw [r3 "c1_x" (by rw [h5]; simp [decorrName])]; rfl
    rw [decFun_congr (s := s) L (fun p hp => readPar_frame hag _ (fun i hi => On.other_not_analytic hb hi))]
    unfold RVLike.decFun
    rw [h5]
    have hname : decorrName "" "x" = "c1_x" := by decide
    simp only [List.map_cons, List.map_nil, List.foldlM_cons, List.foldlM_nil, hname]
    unfold RVLike.decAcc RVLike.decFun1
    have hsplit : (splitU "c1_x".toList)[1]? = some ['x'] := by decide
    simp only [hsplit]
    have hpars : L.pars s ['x'] = .ok [1, 0] := by
      unfold RVLike.pars
      rw [h5]
      have : ((["x"].map (decorrName "")).filter (fun par => decide (['x'] <:+: par.toList))).map Key.other = [.other "c1_x"] := by decide
      rw [this]
      simp [readPars, hp]
    have hall : L.obs.all (fun o => (o.dec ['x']).isFinite) = true := by rw [h4]; rfl
    have hmean : mean (L.obs.map (fun o => (o.dec ['x']).toReal)) = 1 := by
      rw [h4]; simp [witnessObs, Fl.toReal, mean]
    simp only [hpars, h6, hall, hmean, bind, Except.bind, pure, Except.pure]
    simp [poly1d]
  rw [hdec] at hres
  have hγ : readPar (gammaWritten L (fun _ => some 0) s (witnessRow (.inst .gamma L.suffix)) (witnessRow (.inst .jit L.suffix)))
      (.inst .gamma L.suffix) = .ok (gammaUsed L (fun _ => some 0) (witnessRow (.inst .gamma L.suffix)) (witnessRow (.inst .jit L.suffix))) := by
    simp only [readPar, hag.indices, hL.gamma, gammaWritten_row L _ s _ _ r1]
  have hj0 : readPar s (.inst .jit L.suffix) = .ok 0 := by simp only [readPar, hL.jit, r2]; rfl
  have hv : ∀ o ∈ L.obs, o.err ≠ 0 ∨ (0 : ℝ) ≠ 0 := by
    rw [h4]; simp [witnessObs]
  obtain ⟨l, e1, e2⟩ := C27_marginal_general mod L s hb hL (fun _ => 0) hm 0 hj0 ha (by rw [h4]; simp [witnessObs]) hv _ _ _ hγ hres
  refine ⟨s, _, L, _, _, l, h1, ha, hγ, hres, e1, ?_⟩
  rw [e2]
  intro hc
  set I := ∫ x : ℝ, whiteDensity (L.obs.map (fun o => { o with y := o.y - ((o.dec ['x']).toReal - 1) })) (fun _ => 0) 0 x with hI
  have hIpos : I ≠ 0 := by
    intro h0
    rw [h0, zero_mul] at e2
    exact (exp_pos l).ne' e2
  have h1' := mul_left_cancel₀ hIpos (hc.trans (mul_one I).symm)
  rw [exp_eq_one_iff] at h1'
  rw [h4] at h1'
  norm_num [witnessObs, Fl.toReal] at h1'

/-- Non-vacuity of C26: a reachable state with an ordinary gamma, and of C27: one with an analytic gamma. -/
example (drive : Drive) (tb : ℝ) : ∃ s L, Likes s [L] ∧ L.On s ∧ L.obs = witnessObs ∧ L.decParams = [] ∧ AnalyticGamma s L.gammaIdx ∧
    ModelIs (fun s t => modelCall drive tb s none t) L s (fun _ => 0) ∧ readPar s (.inst .jit L.suffix) = .ok 0 := by
  obtain ⟨s, L, h1, h2, h3, h4, h5, h6, h7⟩ := flatLike witnessObs "_a" [] [] witnessRow
  obtain ⟨hb, hon⟩ := h1.built
  have hL := hon L (by simp)
  obtain ⟨r1, r2, r3⟩ := RVLike.other_row hb hL witnessRow h7
  refine ⟨s, L, h1, hL, h4, h5, ⟨_, _, hL.gamma, r1, rfl, rfl⟩, ?_, by simp only [readPar, hL.jit, r2]; rfl⟩
  intro o _
  show modelCall drive tb s none o.t = _
  rw [flat_model drive tb o.t s hb h2 witnessRow h7]
  simp [witnessRow]

example (drive : Drive) (tb : ℝ) : ∃ s L, Likes s [L] ∧ L.On s ∧ L.obs = witnessObs ∧ L.decParams = [] ∧ ¬ AnalyticGamma s L.gammaIdx ∧
    ModelIs (fun s t => modelCall drive tb s none t) L s (fun t => t - tb) ∧ readPar s (.inst .gamma L.suffix) = .ok 1 ∧
    readPar s (.inst .jit L.suffix) = .ok 1 := by
  obtain ⟨s, L, h1, h2, h3, h4, h5, h6, h7⟩ := flatLike witnessObs "_a" [] []
    (fun k => { value := if k = .curv then 0 else 1, vary := true, scale := 0, linear := false })
  obtain ⟨hb, hon⟩ := h1.built
  have hL := hon L (by simp)
  obtain ⟨r1, r2, r3⟩ := RVLike.other_row hb hL _ h7
  refine ⟨s, L, h1, hL, h4, h5, ?_, ?_, by simp [readPar, hL.gamma, r1], by simp [readPar, hL.jit, r2]⟩
  · rintro ⟨x, r, _, e2, e3, _⟩
    rw [r1] at e2; cases e2; simp at e3
  · intro o _
    show modelCall drive tb s none o.t = _
    rw [flat_model drive tb o.t s hb h2 _ h7]
    simp

/-! ## C28 -/

theorem compositeStep_frame {mod : Curve} (hmod : mod.Orbital) {s : VState ℝ} (hs : Built s) (Ls : List RVLike) (hL : ∀ L ∈ Ls, L.On s) (vs : List Fl)
    (hv : List.Forall₂ (fun (L : RVLike) v => ∃ s', L.logprob mod s = .ok (s', v)) Ls vs) (s0 : VState ℝ) (h0 : AgreeOff s s0) (acc : Fl) :
    ∃ s', (Ls.map (fun L => L.logprob mod)).foldlM compositeStep (s0, acc) = .ok (s', acc + vs.sum) ∧ AgreeOff s s' := by
  induction hv generalizing s0 acc with
  | nil => exact ⟨s0, by rw [List.sum_nil, add_zero]; rfl, h0⟩
  | @cons L v Lt vt h _ ih =>
    obtain ⟨s1, h1⟩ := h
    rcases logprob_frame hmod hs (hL L (by simp)) h0 with ⟨e, a, _⟩ | ⟨b1, b2, b3, _, c1, c2, _, _, _, c4⟩
    · rw [h1] at a; cases a
    · rw [h1] at c1; cases c1
      obtain ⟨s', d1, d2⟩ := ih (fun L hL' => hL L (List.mem_cons_of_mem _ hL')) b2 c4 (acc + v)
      refine ⟨s', ?_, d2⟩
      rw [List.map_cons, List.foldlM_cons]
      simp only [compositeStep, c2, bind, Except.bind]
      rw [d1, List.sum_cons, add_assoc]

/-- C28: the composite log likelihood is the sum of the members' log likelihoods (each evaluated on its own in the same state). -/
theorem C28_sum (mod : Curve) (hmod : mod.Orbital) (s : VState ℝ) (Ls : List RVLike) (h : Likes s Ls) (vs : List Fl)
    (hv : List.Forall₂ (fun (L : RVLike) v => LikeEval.value (L.logprob mod) s = .ok v) Ls vs) :
    LikeEval.value (compositeLogprob (Ls.map (fun L => L.logprob mod))) s = .ok vs.sum := by
  obtain ⟨hs, hL⟩ := h.built
  have hv' : List.Forall₂ (fun (L : RVLike) v => ∃ s', L.logprob mod s = .ok (s', v)) Ls vs := by
    refine hv.imp ?_
    intro L v hv
    unfold LikeEval.value at hv
    split at hv
    · rename_i s' v' heq; cases hv; exact ⟨s', heq⟩
    · cases hv
  obtain ⟨s', h1, _⟩ := compositeStep_frame hmod hs Ls hL vs hv' s (AgreeOff.refl s) 0
  unfold LikeEval.value compositeLogprob
  rw [h1, zero_add]

/-- C28: the order of the members does not matter. -/
theorem C28_order (mod : Curve) (hmod : mod.Orbital) (s : VState ℝ) (Ls Ls' : List RVLike) (h : Likes s Ls) (hp : Ls.Perm Ls')
    (hv : ∀ L ∈ Ls, ∃ v, LikeEval.value (L.logprob mod) s = .ok v) :
    LikeEval.value (compositeLogprob (Ls'.map (fun L => L.logprob mod))) s = LikeEval.value (compositeLogprob (Ls.map (fun L => L.logprob mod))) s := by
  obtain ⟨hs, hL⟩ := h.built
  have val : ∀ L ∈ Ls, ∃ s', L.logprob mod s = .ok (s', match L.logprob mod s with | .ok (_, v) => v | .error _ => .nan) := by
    intro L hL
    obtain ⟨v, hv⟩ := hv L hL
    unfold LikeEval.value at hv
    split at hv
    · rename_i s' v' heq; exact ⟨s', by simp only [heq]⟩
    · cases hv
  set f : RVLike → Fl := fun L => match L.logprob mod s with | .ok (_, v) => v | .error _ => .nan with hf
  have key : ∀ Ms : List RVLike, (∀ L ∈ Ms, L ∈ Ls) → List.Forall₂ (fun (L : RVLike) v => ∃ s', L.logprob mod s = .ok (s', v)) Ms (Ms.map f) := by
    intro Ms
    induction Ms with
    | nil => intro _; exact .nil
    | cons L t ih => intro h; exact .cons (val L (h L (by simp))) (ih (fun M hM => h M (List.mem_cons_of_mem _ hM)))
  obtain ⟨s1, h1, _⟩ := compositeStep_frame hmod hs Ls hL _ (key Ls (fun _ h => h)) s (AgreeOff.refl s) 0
  obtain ⟨s2, h2, _⟩ := compositeStep_frame hmod hs Ls' (fun L hL' => hL L (hp.mem_iff.2 hL')) _ (key Ls' (fun L hL' => hp.mem_iff.2 hL')) s (AgreeOff.refl s) 0
  unfold LikeEval.value compositeLogprob
  rw [h1, h2]
  simp only
  rw [(hp.map f).sum_eq]

/-- C28: residuals and error bars of the composite are those of the members, one after the other. -/
theorem C28_arrays (mod : Curve) (hmod : mod.Orbital) (s : VState ℝ) (Ls : List RVLike) (h : Likes s Ls) (rs : List (List (Option ℝ)))
    (hr : List.Forall₂ (fun (L : RVLike) r => ∃ s', L.residuals mod s = .ok (s', r)) Ls rs)
    (es : List (List ℝ)) (he : List.Forall₂ (fun (L : RVLike) e => L.errorbars s = .ok e) Ls es) :
    (∃ s', compositeResiduals mod Ls s = .ok (s', rs.flatten)) ∧ compositeErrorbars Ls s = .ok es.flatten := by
  obtain ⟨hs, hL⟩ := h.built
  constructor
  · have key : ∀ (Ls : List RVLike) (rs : List (List (Option ℝ))), (∀ L ∈ Ls, L.On s) →
        List.Forall₂ (fun (L : RVLike) r => ∃ s', L.residuals mod s = .ok (s', r)) Ls rs →
        ∀ s0, AgreeOff s s0 → ∃ s', compositeResiduals mod Ls s0 = .ok (s', rs.flatten) := by
      intro Ls rs hL hr
      induction hr with
      | nil => intro s0 _; exact ⟨s0, rfl⟩
      | @cons L r Lt rt h _ ih =>
        intro s0 h0
        obtain ⟨s1, h1⟩ := h
        rcases logprob_frame hmod hs (hL L (by simp)) h0 with ⟨e, _, _, a, _⟩ | ⟨b1, b2, b3, b4, _, _, c1, c2, _, c4⟩
        · rw [h1] at a; cases a
        · rw [h1] at c1; cases c1
          obtain ⟨s', d⟩ := ih (fun L hL' => hL L (List.mem_cons_of_mem _ hL')) b2 c4
          exact ⟨s', by simp only [compositeResiduals, c2, d, List.flatten_cons]⟩
    exact key Ls rs hL hr s (AgreeOff.refl s)
  · clear hr hL h
    induction he with
    | nil => rfl
    | cons h _ ih => simp only [compositeErrorbars, h, ih, List.flatten_cons]

/-- C28: error bars are `√(errvel² + jit²)`. -/
theorem C28_errorbars (L : RVLike) (s : VState ℝ) (hL : L.On s) (jit : ℝ) (hj : readPar s (.inst .jit L.suffix) = .ok jit) :
    L.errorbars s = .ok (L.obs.map (fun o => √(o.err ^ 2 + jit ^ 2))) := by
  unfold readPar at hj
  rw [hL.jit] at hj
  simp only at hj
  unfold RVLike.errorbars readRow
  split at hj
  · cases hj
  · rename_i r hr
    cases hj
    simp only [hr]
    rfl

/-- Non-vacuity of C28: two likelihoods with different suffixes in one reachable state. -/
example : ∃ s L M, Likes s [L, M] ∧ L.suffix = "_a" ∧ M.suffix = "_b" ∧ L.obs = witnessObs ∧ M.obs = witnessObs := by
  obtain ⟨s0, h0, _⟩ := flatStart
  obtain ⟨s1, L, h1, _⟩ := RVLike.new_ok h0 witnessObs "_a" [] []
  obtain ⟨b1, _, b3, b4, _⟩ := RVLike.new_built _ _ _ _ _ _ _ h0 h1
  obtain ⟨s2, M, h2, _⟩ := RVLike.new_ok b1 witnessObs "_b" [] []
  obtain ⟨_, _, c3, c4, _⟩ := RVLike.new_built _ _ _ _ _ _ _ b1 h2
  exact ⟨s2, L, M, .like s1 s2 [L] M (.like s0 s1 [] L (.start _ h0) _ _ _ _ h1) _ _ _ _ h2, b3, c3, b4, c4⟩

/-! ## C29, C30 -/

/-- The offset subtracted from a member's velocities. -/
noncomputable def offsetOf (s : VState ℝ) (m : Member) : ℝ :=
  match readPar s m.gammaParam with
  | .ok g => g
  | .error _ => 0

theorem compositeInit_eq (s : VState ℝ) (m0 : Member) (ms : List Member) (hg : ∀ m ∈ ms, ∃ g, readPar s m.gammaParam = .ok g) :
    ∃ c, compositeInit s (m0 :: ms) = .ok c ∧ c.x = m0.x ++ (ms.map Member.x).flatten ∧
      c.y = m0.y ++ (ms.map (fun m => m.y.map (· - offsetOf s m))).flatten ∧ c.yerr = m0.yerr ++ (ms.map Member.yerr).flatten ∧
      c.telvec = m0.telvec ++ (ms.map Member.telvec).flatten ∧ c.hnames = (ms.map (fun m => m.hnames.getD [])).flatten := by
  have key : ∀ (ms : List Member) (c0 : CompositeData), (∀ m ∈ ms, ∃ g, readPar s m.gammaParam = .ok g) →
      ∃ c, ms.foldlM (compositeAppend s) c0 = .ok c ∧ c.x = c0.x ++ (ms.map Member.x).flatten ∧
      c.y = c0.y ++ (ms.map (fun m => m.y.map (· - offsetOf s m))).flatten ∧ c.yerr = c0.yerr ++ (ms.map Member.yerr).flatten ∧
      c.telvec = c0.telvec ++ (ms.map Member.telvec).flatten ∧ c.hnames = c0.hnames ++ (ms.map (fun m => m.hnames.getD [])).flatten := by
    intro ms
    induction ms with
    | nil => intro c0 _; exact ⟨c0, rfl, by simp, by simp, by simp, by simp, by simp⟩
    | cons m t ih =>
      intro c0 h
      obtain ⟨g, hg⟩ := h m (by simp)
      have ho : offsetOf s m = g := by simp [offsetOf, hg]
      obtain ⟨c, e1, e2, e3, e4, e5, e6⟩ := ih ⟨c0.x ++ m.x, c0.y ++ m.y.map (· - g), c0.yerr ++ m.yerr, c0.telvec ++ m.telvec, c0.hnames ++ m.hnames.getD []⟩ (fun m hm => h m (List.mem_cons_of_mem _ hm))
      refine ⟨c, ?_, by simpa using e2, by simpa [ho] using e3, by simpa using e4, by simpa using e5, by simpa using e6⟩
      rw [List.foldlM_cons]
      simp only [compositeAppend, hg, bind, Except.bind]
      exact e1
  obtain ⟨c, h1, h2, h3, h4, h5, h6⟩ := key ms { x := m0.x, y := m0.y, yerr := m0.yerr, telvec := m0.telvec, hnames := [] } hg
  exact ⟨c, h1, h2, h3, h4, h5, by simpa using h6⟩

/-- C29, provable part (missing: members after the first with a non-zero gamma, where it is false): times, errors and instrument labels are the members' in order; the
velocities are too exactly when every later member with data has gamma 0 at construction. -/
theorem C29_velocities_partial (s : VState ℝ) (m0 : Member) (ms : List Member) (hg : ∀ m ∈ ms, ∃ g, readPar s m.gammaParam = .ok g) :
    ∃ c, compositeInit s (m0 :: ms) = .ok c ∧ c.x = ((m0 :: ms).map Member.x).flatten ∧ c.yerr = ((m0 :: ms).map Member.yerr).flatten ∧
      c.telvec = ((m0 :: ms).map Member.telvec).flatten ∧ c.y.length = ((m0 :: ms).map Member.y).flatten.length ∧
      (c.y = ((m0 :: ms).map Member.y).flatten ↔ ∀ m ∈ ms, m.y ≠ [] → readPar s m.gammaParam = .ok 0) := by
  obtain ⟨c, h1, h2, h3, h4, h5, h6⟩ := compositeInit_eq s m0 ms hg
  refine ⟨c, h1, by simpa using h2, by simpa using h4, by simpa using h5, ?_, ?_⟩
  · rw [h3]
    simp [List.length_flatten, Function.comp_def]
  · rw [h3, List.map_cons, List.flatten_cons, List.append_right_inj]
    clear h1 h2 h3 h4 h5 h6
    induction ms with
    | nil => simp
    | cons m t ih =>
      obtain ⟨g, hm⟩ := hg m (by simp)
      have ho : offsetOf s m = g := by simp [offsetOf, hm]
      rw [List.map_cons, List.flatten_cons, List.map_cons, List.flatten_cons]
      constructor
      · intro h
        obtain ⟨ha, hb⟩ := List.append_inj h (by simp)
        intro m' hm' hne
        rcases List.mem_cons.1 hm' with rfl | hm'
        · cases hy : m'.y with
          | nil => exact absurd hy hne
          | cons y ys =>
            rw [hy, ho] at ha
            simp only [List.map_cons, List.cons.injEq] at ha
            have : g = 0 := by linarith [ha.1]
            rw [hm, this]
        · exact (ih (fun m hm => hg m (List.mem_cons_of_mem _ hm))).1 hb m' hm' hne
      · intro h
        rw [(ih (fun m hm => hg m (List.mem_cons_of_mem _ hm))).2 (fun m' hm' hne => h m' (List.mem_cons_of_mem _ hm') hne)]
        congr 1
        by_cases hne : m.y = []
        · simp [hne]
        · have := h m (by simp) hne
          rw [hm] at this
          simp only [Except.ok.injEq] at this
          rw [ho, this]
          simp

/-- C29 in full is false: with two instruments whose second gamma is not 0 (any reachable state), the composite velocities are not the input velocities. -/
theorem C29_velocities_violated : ∃ (s : VState ℝ) (L : RVLike), Likes s [L] ∧ ∃ c,
    compositeInit s [⟨[0], [5], [1], ["a"], .inst .gamma "_a", none⟩, ⟨[1], [7], [1], ["b"], .inst .gamma "_b", none⟩] = .ok c ∧ c.y = [5, 6] ∧ c.y ≠ [5, 7] := by
  obtain ⟨s, L, h1, h2, h3, h4, h5, h6, h7⟩ := flatLike [] "_b" [] [] (fun _ => { value := 1, vary := true, scale := 0, linear := false })
  obtain ⟨hb, hon⟩ := h1.built
  have hL := hon L (by simp)
  obtain ⟨r1, _, _⟩ := RVLike.other_row hb hL _ h7
  have hg : readPar s (.inst .gamma "_b") = .ok 1 := by
    have := hL.gamma
    rw [h3] at this
    simp only [readPar, this, r1]
  refine ⟨s, L, h1, ⟨[0] ++ [1], [5] ++ [7].map (· - 1), [1] ++ [1], ["a"] ++ ["b"], [] ++ []⟩, ?_, ?_, ?_⟩
  · simp [compositeInit, compositeAppend, hg, bind, Except.bind, pure, Except.pure]
  · norm_num
  · norm_num

/-- C30, provable part (missing: a first member with a GP, where it is false): if the first member has no GP, the composite lists exactly the hyperparameters of its
members, in order. -/
theorem C30_hnames_partial (s : VState ℝ) (m0 : Member) (ms : List Member) (hg : ∀ m ∈ ms, ∃ g, readPar s m.gammaParam = .ok g)
    (h0 : m0.hnames = none) :
    ∃ c, compositeInit s (m0 :: ms) = .ok c ∧ c.hnames = ((m0 :: ms).map (fun m => m.hnames.getD [])).flatten := by
  obtain ⟨c, h1, _, _, _, _, h6⟩ := compositeInit_eq s m0 ms hg
  exact ⟨c, h1, by simp [h6, h0]⟩

/-- C30 in full is false: a hyperparameter that belongs to the first member only is never listed, whatever the members are. -/
theorem C30_hnames_violated (s : VState ℝ) (m0 : Member) (ms : List Member) (hg : ∀ m ∈ ms, ∃ g, readPar s m.gammaParam = .ok g)
    (h : List Key) (_h0 : m0.hnames = some h) (k : Key) (_hk : k ∈ h) (hk' : ∀ m ∈ ms, ∀ h', m.hnames = some h' → k ∉ h') :
    ∃ c, compositeInit s (m0 :: ms) = .ok c ∧ k ∉ c.hnames := by
  obtain ⟨c, h1, _, _, _, _, h6⟩ := compositeInit_eq s m0 ms hg
  refine ⟨c, h1, ?_⟩
  rw [h6]
  intro hc
  obtain ⟨l, hl, hkl⟩ := List.mem_flatten.1 hc
  obtain ⟨m, hm, rfl⟩ := List.mem_map.1 hl
  cases hh : m.hnames with
  | none => rw [hh] at hkl; simp at hkl
  | some h' => rw [hh] at hkl; exact hk' m hm h' hh hkl

/-- Non-vacuity of C30 and its violation: a single GP instrument. -/
example (s : VState ℝ) : ∃ c, compositeInit s [⟨[0], [5], [1], ["a"], .inst .gamma "_a", some [.inst .gp "_amp"]⟩] = .ok c ∧ Key.inst .gp "_amp" ∉ c.hnames :=
  C30_hnames_violated s _ [] (by simp) _ rfl _ (by simp) (by simp)

/-! ## C31 -/

/-- C31, provable part (missing: variable names that occur in another parameter's name, or contain `_`): if no variable name contains `_`, the suffix is empty or starts with
`_`, and each variable name occurs as a substring only in its own parameter name, then the residuals are velocity minus gamma minus model minus, for each
variable without non-finite entries, its own coefficient times the mean-subtracted variable. -/
theorem C31_own_coefficient_partial (mod : Curve) (L : RVLike) (s : VState ℝ) (hs : Built s) (hL : L.On s) (m : ℝ → ℝ) (hm : ModelIs mod L s m)
    (ds : List String) (hds : L.decParams = ds.map (decorrName L.suffix)) (hn : ds.Nodup) (hkeys : ∀ d ∈ ds, d.toList ∈ L.decVars)
    (hu : ∀ d ∈ ds, '_' ∉ d.toList) (hsuf : L.suffix = "" ∨ ∃ t, L.suffix.toList = '_' :: t)
    (hclean : ∀ d ∈ ds, ∀ d' ∈ ds, d.toList <:+: (decorrName L.suffix d').toList → d' = d)
    (c : String → ℝ) (hc : ∀ d ∈ ds, readPar s (.other (decorrName L.suffix d)) = .ok (c d)) :
    ∃ s' γ, readPar s' (.inst .gamma L.suffix) = .ok γ ∧ (¬ AnalyticGamma s L.gammaIdx → s' = s) ∧
      L.residuals mod s = .ok (s', L.obs.map (fun o => some (o.y - γ - m o.t -
        ((ds.filter (fun d => L.obs.all (fun o => (o.dec d.toList).isFinite))).map (fun d =>
          c d * ((o.dec d.toList).toReal - mean (L.obs.map (fun o => (o.dec d.toList).toReal))))).sum))) := by
  obtain ⟨g, j, h1, h2, _, h4⟩ := On.rows hs hL
  set M : ℝ → Option ℝ := fun t => some (m t) with hM
  have hag := gammaWritten_agree hL M (j := j) h1
  refine ⟨gammaWritten L M s g j, gammaUsed L M g j, ?_, ?_, ?_⟩
  · simp only [readPar, hag.indices, hL.gamma, gammaWritten_row L M s g j h1]
  · intro hna
    have : g.analytic = false := by simpa using fun h => hna (h4.2 h)
    simp [gammaWritten, this]
  · rw [residuals_eq mod L s M hm g j h1 h2]
    rw [decFun_congr (s := s) L (fun p hp => readPar_frame hag _ (fun i hi => On.other_not_analytic hs hi))]
    rw [decFun_plain L s ds hds hn hkeys hu (fun _ => hsuf) hclean c hc]
    simp only [hM, Option.map_some, decorrTerm]

/-- Two variables `s` and `bis`. -/
def clashObs : List Obs := [{ t := 0, y := 0, err := 1, dec := fun v => if v = ['s'] then .fin 0 else .fin 1 },
  { t := 1, y := 0, err := 1, dec := fun v => if v = ['s'] then .fin 4 else .fin 1 }]

/-- C31 in full is false: with the two variables `s` and `bis`, the coefficient of `bis` also multiplies the variable `s` (its square for this order), because `'s' in 'c1_bis'`. -/
theorem C31_substring_violated (drive : Drive) (tb : ℝ) : ∃ (s : VState ℝ) (L : RVLike), Likes s [L] ∧ L.decParams = ["c1_s", "c1_bis"] ∧
    readPar s (.other "c1_s") = .ok 1 ∧ readPar s (.other "c1_bis") = .ok 10 ∧
    L.residuals (fun s t => modelCall drive tb s none t) s = .ok (s, [some (-(4 - 20)), some (-(4 + 20))]) := by
  obtain ⟨s, L, h1, h2, h3, h4, h5, h6, h7⟩ := flatLike clashObs "" ["s", "bis"] [['s'], ['b', 'i', 's']]
    (fun k => { value := if k = .other "c1_s" then 1 else if k = .other "c1_bis" then 10 else 0, vary := true, scale := 0, linear := false })
  obtain ⟨hb, hon⟩ := h1.built
  have hL := hon L (by simp)
  obtain ⟨r1, r2, r3⟩ := RVLike.other_row hb hL _ h7
  have hn : L.decParams = ["c1_s", "c1_bis"] := by rw [h5]; decide
  have p1 : readPar s (.other "c1_s") = .ok 1 := by rw [r3 _ (by rw [hn]; simp)]; simp
  have p2 : readPar s (.other "c1_bis") = .ok 10 := by rw [r3 _ (by rw [hn]; simp)]; simp
  refine ⟨s, L, h1, hn, p1, p2, ?_⟩
  set mod : Curve := fun s t => modelCall drive tb s none t with hmod
  have hm : ModelIs mod L s (fun _ => 0) := by
    intro o _
    show modelCall drive tb s none o.t = _
    rw [flat_model drive tb o.t s hb h2 _ h7]
    simp
  rw [residuals_eq mod L s (fun _ => some 0) hm _ _ r1 r2]
  have hgw : ∀ j, gammaWritten L (fun _ => some 0) s
      { value := if Key.inst .gamma L.suffix = .other "c1_s" then 1 else if Key.inst .gamma L.suffix = .other "c1_bis" then 10 else 0,
        vary := true, scale := 0, linear := false } j = s := by
    intro j; simp [gammaWritten, Row.analytic]
  have pars1 : L.pars s ['s'] = .ok [1, 10, 0] := by
    unfold RVLike.pars
    rw [hn]
    have : (["c1_s", "c1_bis"].filter (fun par => decide (['s'] <:+: par.toList))).map Key.other = [.other "c1_s", .other "c1_bis"] := by decide
    rw [this]
    simp [readPars, p1, p2]
  have pars2 : L.pars s ['b', 'i', 's'] = .ok [10, 0] := by
    unfold RVLike.pars
    rw [hn]
    have : (["c1_s", "c1_bis"].filter (fun par => decide (['b', 'i', 's'] <:+: par.toList))).map Key.other = [.other "c1_bis"] := by decide
    rw [this]
    simp [readPars, p2]
  have hdec : L.decFun s = .ok (fun o => poly1d [1, 10, 0] ((o.dec ['s']).toReal - 2) + poly1d [10, 0] ((o.dec ['b', 'i', 's']).toReal - 1)) := by
    have e1 : (splitU "c1_s".toList)[1]? = some ['s'] := by decide
    have e2 : (splitU "c1_bis".toList)[1]? = some ['b', 'i', 's'] := by decide
    have m1 : mean (L.obs.map (fun o => (o.dec ['s']).toReal)) = 2 := by
      rw [h4]; simp [clashObs, Fl.toReal, mean]; norm_num
    have m2 : mean (L.obs.map (fun o => (o.dec ['b', 'i', 's']).toReal)) = 1 := by
      rw [h4]; simp [clashObs, Fl.toReal, mean]
    have a1 : L.obs.all (fun o => (o.dec ['s']).isFinite) = true := by rw [h4]; rfl
    have a2 : L.obs.all (fun o => (o.dec ['b', 'i', 's']).isFinite) = true := by rw [h4]; rfl
    unfold RVLike.decFun
    rw [hn]
    simp only [List.foldlM_cons, List.foldlM_nil]
    unfold RVLike.decAcc RVLike.decFun1
    simp only [e1, e2, pars1, pars2, h6, a1, a2, m1, m2, bind, Except.bind, pure, Except.pure]
    simp
  rw [hgw, hdec]
  simp [gammaUsed, Row.analytic, h4, clashObs, poly1d, Fl.toReal]
  norm_num

/-- C31 in full is false for names with an underscore too: the variable `a_b` makes every evaluation fail with a `KeyError`. -/
theorem C31_underscore_violated (drive : Drive) (tb : ℝ) : ∃ (s : VState ℝ) (L : RVLike), Likes s [L] ∧ L.decParams = ["c1_a_b"] ∧ L.decVars = ["a_b".toList] ∧
    L.residuals (fun s t => modelCall drive tb s none t) s = .error .keyError := by
  obtain ⟨s, L, h1, h2, h3, h4, h5, h6, h7⟩ := flatLike clashObs "" ["a_b"] ["a_b".toList] (fun _ => { value := 0, vary := true, scale := 0, linear := false })
  obtain ⟨hb, hon⟩ := h1.built
  have hL := hon L (by simp)
  obtain ⟨r1, r2, r3⟩ := RVLike.other_row hb hL _ h7
  have hn : L.decParams = ["c1_a_b"] := by rw [h5]; decide
  refine ⟨s, L, h1, hn, h6, ?_⟩
  set mod : Curve := fun s t => modelCall drive tb s none t with hmod
  have hm : ModelIs mod L s (fun _ => 0) := by
    intro o _
    show modelCall drive tb s none o.t = _
    rw [flat_model drive tb o.t s hb h2 _ h7]
    simp
  rw [residuals_eq mod L s (fun _ => some 0) hm _ _ r1 r2]
  have hgw : ∀ j, gammaWritten L (fun _ => some 0) s { value := 0, vary := true, scale := 0, linear := false } j = s := by
    intro j; simp [gammaWritten, Row.analytic]
  have p1 : readPar s (.other "c1_a_b") = .ok 0 := by rw [r3 _ (by rw [hn]; simp)]
  have hdec : L.decFun s = .error .keyError := by
    have e1 : (splitU "c1_a_b".toList)[1]? = some ['a'] := by decide
    have pars1 : L.pars s ['a'] = .ok [0, 0] := by
      unfold RVLike.pars
      rw [hn]
      have : (["c1_a_b"].filter (fun par => decide (['a'] <:+: par.toList))).map Key.other = [.other "c1_a_b"] := by decide
      rw [this]
      simp [readPars, p1]
    have hv : ['a'] ∉ L.decVars := by rw [h6]; decide
    unfold RVLike.decFun
    rw [hn]
    simp only [List.foldlM_cons, List.foldlM_nil]
    unfold RVLike.decAcc RVLike.decFun1
    simp only [e1, pars1, if_pos hv, bind, Except.bind]
  rw [hgw, hdec]

/-- Non-vacuity of C31: two instruments' worth of clean names with distinct coefficients. -/
example : ∀ d ∈ ["fwhm", "rhk"], '_' ∉ d.toList ∧ ∀ d' ∈ ["fwhm", "rhk"], d.toList <:+: (decorrName "_hires" d').toList → d' = d := by decide

example : ∃ s L, Likes s [L] ∧ L.On s ∧ L.decParams = ["fwhm", "rhk"].map (decorrName "_hires") ∧ L.decVars = ["fwhm".toList, "rhk".toList] ∧
    readPar s (.other (decorrName "_hires" "fwhm")) = .ok 3 := by
  obtain ⟨s, L, h1, h2, h3, h4, h5, h6, h7⟩ := flatLike clashObs "_hires" ["fwhm", "rhk"] ["fwhm".toList, "rhk".toList]
    (fun _ => { value := 3, vary := true, scale := 0, linear := false })
  obtain ⟨hb, hon⟩ := h1.built
  have hL := hon L (by simp)
  obtain ⟨r1, r2, r3⟩ := RVLike.other_row hb hL _ h7
  exact ⟨s, L, h1, hL, h5, h6, r3 _ (by rw [h5]; simp)⟩

/-! ## C32 -/

/-- Reading the free parameters with a fresh or up-to-date cache gives one value per free row. -/
theorem getVary_fresh (l : LikeState ℝ) (hc : l.cache = none ∨ l.cache = some (freeRows l.st.rows)) :
    ∃ xs l', l.getVaryParams = (l', .ok xs) ∧ l'.st = l.st ∧ xs.length = (freeRows l.st.rows).length := by
  obtain ⟨vs, h1, h2, _⟩ := readVals_ok l.st.rows (freeRows l.st.rows) (freeRows_lt _)
  rcases hc with hc | hc
  · exact ⟨vs, l.listVaryParams, by simp [LikeState.getVaryParams, hc, LikeState.listVaryParams, h1], rfl, h2⟩
  · exact ⟨vs, l, by simp [LikeState.getVaryParams, hc, h1], rfl, h2⟩

/-- C32: `bic()` is `ln n · k − 2 ln L`, with `k` the number of free parameters and `ln L` the log likelihood in the current state, for `Likelihood` and
`Posterior`. -/
theorem C32_bic (like : LikeEval) (n : Nat) (hn : 0 < n) (l : LikeState ℝ) (hc : l.cache = none ∨ l.cache = some (freeRows l.st.rows)) (v : ℝ)
    (hv : like.value l.st = .ok (.fin v)) :
    likeBic like n l = .ok (.fin (log n * (freeRows l.st.rows).length - 2 * v)) ∧ postBic like n l = likeBic like n l := by
  refine ⟨?_, rfl⟩
  obtain ⟨xs, l', h1, h2, h3⟩ := getVary_fresh l hc
  unfold likeBic criterion
  unfold LikeEval.value at hv
  simp only [h1, h2]
  split at hv
  · rename_i s' v' heq
    cases hv
    simp only [heq, bicOf, logTimes, negTwo, h3, if_neg hn.ne', Fl.fin_add_fin]
    congr 2; ring
  · cases hv

/-- C32: `Likelihood.aic()` is the corrected criterion `2k − 2 ln L + 2k(k+1)/(n−k−1)` when `n > k + 1`, and `+inf` otherwise. -/
theorem C32_aic (like : LikeEval) (n : Nat) (l : LikeState ℝ) (hc : l.cache = none ∨ l.cache = some (freeRows l.st.rows)) (v : ℝ)
    (hv : like.value l.st = .ok (.fin v)) (k : Nat) (hk : k = (freeRows l.st.rows).length) :
    likeAic like n l = .ok (if k + 1 < n then .fin (2 * k - 2 * v + 2 * k * (k + 1) / (n - k - 1)) else .pos) ∧
    (k + 1 < n → ∃ a, likeAic like n l = .ok (.fin a) ∧ 2 * k - 2 * v ≤ a ∧ (0 < k → 2 * k - 2 * v < a)) := by
  have key : likeAic like n l = .ok (if k + 1 < n then .fin (2 * k - 2 * v + 2 * k * (k + 1) / (n - k - 1)) else .pos) := by
    obtain ⟨xs, l', h1, h2, h3⟩ := getVary_fresh l hc
    unfold likeAic criterion
    unfold LikeEval.value at hv
    simp only [h1, h2]
    split at hv
    · rename_i s' v' heq
      cases hv
      simp only [heq, aicOf, negTwo, h3, ← hk, Fl.fin_add_fin]
      have : ((n : ℝ) - k - 1 > 0) ↔ k + 1 < n := by
        constructor
        · intro h
          have : ((k + 1 : ℕ) : ℝ) < n := by push_cast; linarith
          exact_mod_cast this
        · intro h
          have : ((k + 1 : ℕ) : ℝ) < n := by exact_mod_cast h
          push_cast at this; linarith
      by_cases h : k + 1 < n
      · rw [if_pos h, if_pos (this.2 h)]
        congr 2; ring
      · rw [if_neg h, if_neg (fun hc => h (this.1 hc))]
    · cases hv
  refine ⟨key, fun h => ?_⟩
  rw [if_pos h] at key
  have hp : (0 : ℝ) < n - k - 1 := by
    have : ((k + 1 : ℕ) : ℝ) < n := by exact_mod_cast h
    push_cast at this; linarith
  refine ⟨_, key, ?_, ?_⟩
  · have : (0 : ℝ) ≤ 2 * k * (k + 1) / (n - k - 1) := by positivity
    linarith
  · intro hk0
    have hk0' : (0 : ℝ) < k := by exact_mod_cast hk0
    have : (0 : ℝ) < 2 * k * (k + 1) / (n - k - 1) := by positivity
    linarith

/-- C32 for `Posterior.aic` is false: it never returns a value (`raise self.likelihood.aic()`). -/
theorem C32_posterior_aic_violated (like : LikeEval) (n : Nat) (l : LikeState ℝ) : ∀ v, postAic like n l ≠ .ok v := by
  intro v
  unfold postAic
  split <;> simp

/-- Non-vacuity of C32. -/
example (drive : Drive) (tb : ℝ) : ∃ (s : VState ℝ) (l : LikeState ℝ) (L : RVLike) (v : ℝ), Likes s [L] ∧ l.st = s ∧ freeRows s.rows ≠ [] ∧ l.cache = none ∧
    LikeEval.value (L.logprob (fun s t => modelCall drive tb s none t)) l.st = .ok (.fin v) := by
  obtain ⟨s, L, h1, h2, h3, h4, h5, h6, h7⟩ := flatLike witnessObs "_a" [] [] (fun k => { value := 0, vary := true, scale := 0, linear := false })
  obtain ⟨hb, hon⟩ := h1.built
  have hL := hon L (by simp)
  obtain ⟨r1, r2, r3⟩ := RVLike.other_row hb hL _ h7
  have hm : ModelIs (fun s t => modelCall drive tb s none t) L s (fun _ => 0) := by
    intro o _
    show modelCall drive tb s none o.t = _
    rw [flat_model drive tb o.t s hb h2 _ h7]
    simp
  have hna : ¬ AnalyticGamma s L.gammaIdx := by
    rintro ⟨x, r, _, e2, e3, _⟩
    rw [r1] at e2; cases e2; simp at e3
  obtain ⟨l, hl, _⟩ := C26_product _ L s hb hL (fun _ => 0) hm 0 0 (by simp [readPar, hL.gamma, r1]) (by simp [readPar, hL.jit, r2]) hna h5
    (by rw [h4]; simp [witnessObs])
  refine ⟨s, ⟨s, none⟩, L, l, h1, rfl, ?_, rfl, by simp [LikeEval.value, hl]⟩
  exact List.ne_nil_of_mem ((mem_freeRows _ _).2 ⟨_, r1, rfl⟩)

/-! ## C33 -/

/-- C33: the order of the observations is irrelevant: permuting the rows of the data (with their decorrelation values) leaves the log probability, and the state written, as
they are; the residuals are permuted along. -/
theorem C33_white (mod : Curve) (L : RVLike) (s : VState ℝ) (hs : Built s) (hL : L.On s) (obs' : List Obs) (hp : L.obs.Perm obs')
    (M : ℝ → Option ℝ) (hm : ∀ o ∈ L.obs, mod s o.t = .ok (M o.t)) :
    ({ L with obs := obs' } : RVLike).logprob mod s = L.logprob mod s ∧
    ((∃ e, L.residuals mod s = .error e ∧ ({ L with obs := obs' } : RVLike).residuals mod s = .error e) ∨
     ∃ s' f, L.residuals mod s = .ok (s', L.obs.map f) ∧ ({ L with obs := obs' } : RVLike).residuals mod s = .ok (s', obs'.map f)) := by
  obtain ⟨g, j, h1, h2, _, h4⟩ := On.rows hs hL
  set L' : RVLike := { L with obs := obs' } with hL'
  have hm' : ∀ o ∈ L'.obs, mod s o.t = .ok (M o.t) := fun o ho => hm o (hp.mem_iff.2 ho)
  have hpt : (L.obs.map (fun o => (o, M o.t))).Perm (obs'.map (fun o => (o, M o.t))) := hp.map _
  have hgu : gammaUsed L' M g j = gammaUsed L M g j := by
    unfold gammaUsed
    rw [show L'.obs = obs' from rfl, weightedOffset_perm hpt]
  have hgw : gammaWritten L' M s g j = gammaWritten L M s g j := by
    unfold gammaWritten
    rw [hgu]
  have hdf : ∀ s2, L'.decFun s2 = L.decFun s2 := fun s2 => decFun_perm L obs' hp s2
  have hlv : ∀ D, likeValue L' M g j D = likeValue L M g j D := by
    intro D
    unfold likeValue
    rw [hgu]
    have e1 := loglikeJitter_perm hp (fun o => (M o.t).map (fun x => o.y - gammaUsed L M g j - x - D o)) (fun o => o.var j.value)
    have e2 := marginalTerm_perm hp (fun o => o.var j.value)
    simp only [show L'.obs = obs' from rfl, e1, e2]
  constructor
  · rw [logprob_eq mod L s M hm g j h1 h2, logprob_eq mod L' s M hm' g j h1 h2, hgw, hdf]
    cases L.decFun (gammaWritten L M s g j) with
    | error e => rfl
    | ok D => simp only [hlv]
  · rw [residuals_eq mod L s M hm g j h1 h2, residuals_eq mod L' s M hm' g j h1 h2, hgw, hdf]
    cases L.decFun (gammaWritten L M s g j) with
    | error e => exact .inl ⟨e, rfl, rfl⟩
    | ok D => exact .inr ⟨_, _, rfl, by rw [hgu]⟩

/-- Non-vacuity of C33: two different rows, exchanged. -/
example (drive : Drive) (tb : ℝ) : ∃ s L, Likes s [L] ∧ L.On s ∧ L.obs.Perm [witnessObs[1], witnessObs[0]] ∧
    ∀ o ∈ L.obs, (fun s t => modelCall drive tb s none t : Curve) s o.t = .ok (some 0) := by
  obtain ⟨s, L, h1, h2, h3, h4, h5, h6, h7⟩ := flatLike witnessObs "_a" ["x"] [['x']] witnessRow
  obtain ⟨hb, hon⟩ := h1.built
  refine ⟨s, L, h1, hon L (by simp), by rw [h4]; exact List.Perm.swap _ _ _, ?_⟩
  intro o _
  show modelCall drive tb s none o.t = _
  rw [flat_model drive tb o.t s hb h2 witnessRow h7]
  simp [witnessRow]

end Radvel
