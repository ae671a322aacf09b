import Verif.Lemmas.PlotScale
import Verif.Props.OrbitFold

/-!
# C175: the vertical axes of the RV figure and the RMS in its legend
-/

namespace Radvel
open Real

/-- C175: the vertical axis of the velocities goes from `-yscale_sigma` to `+yscale_sigma` times the scatter about their mean of the velocities shown; by `C175_scatter` that is
their RMS exactly if their mean is zero (missing: other means, see `C175_hidden_violated`; decorrelation variables of the kinds for which decorrelation does not work, see C31; instruments sharing a suffix). -/
theorem C175_velocities_partial (dflt : ℝ) (drive : Drive) (tb : ℝ) (s : VState ℝ) (Ls : List RVLike) (h : Likes s Ls) (dv : RVLike → List String) (dc : RVLike → String → ℝ) (hd : ∀ L ∈ Ls, PlainDecorr s.params L (dv L) (dc L))
    (hn : (Ls.map RVLike.suffix).Nodup) (a : PlotArgs) (f : OrbitFig) (hf : orbitInit dflt drive tb s Ls a = .ok f)
    (orb : Nat → Synth) (ho : Elements s.params orb) (v : Nat → ℝ → ℝ) (hv : ∀ m, IsPlanet s.params m → ∀ x ∈ allObs Ls, drive x.2.t (orb m) = some (v m x.2.t))
    (γ : RVLike → ℝ) (hγ : ∀ L ∈ Ls, readPar f.st (.inst .gamma L.suffix) = .ok (γ L)) (hne : allObs Ls ≠ []) (σ : ℝ) :
    let A := scatterReal ((allObs Ls).map (fun x => x.2.y - γ x.1 - decorrTerm x.1 (dv x.1) (dc x.1) x.2))
    f.velYlim false σ = .ok (some (-σ * A, σ * A)) := by
  obtain ⟨_, e2, _⟩ := C140_velocities_partial dflt drive tb s Ls h dv dc hd hn a f hf orb ho v hv γ hγ
  intro A
  have : f.velYlim false σ = setYlim false σ f.vels := rfl
  rw [this, e2, ← setYlim_some σ _ (by simpa using hne), List.map_map]
  rfl

/-- C175: the same for the residuals. -/
theorem C175_residuals_partial (dflt : ℝ) (drive : Drive) (tb : ℝ) (s : VState ℝ) (Ls : List RVLike) (h : Likes s Ls) (dv : RVLike → List String) (dc : RVLike → String → ℝ) (hd : ∀ L ∈ Ls, PlainDecorr s.params L (dv L) (dc L))
    (hn : (Ls.map RVLike.suffix).Nodup) (a : PlotArgs) (f : OrbitFig) (hf : orbitInit dflt drive tb s Ls a = .ok f)
    (orb : Nat → Synth) (ho : Elements s.params orb) (v : Nat → ℝ → ℝ) (hv : ∀ m, IsPlanet s.params m → ∀ x ∈ allObs Ls, drive x.2.t (orb m) = some (v m x.2.t))
    (γ : RVLike → ℝ) (hγ : ∀ L ∈ Ls, readPar f.st (.inst .gamma L.suffix) = .ok (γ L)) (hne : allObs Ls ≠ []) (σ : ℝ) :
    let A := scatterReal ((allObs Ls).map (fun x => x.2.y - γ x.1 - decorrTerm x.1 (dv x.1) (dc x.1) x.2 - (∑ m ∈ Finset.Icc 1 s.params.numPlanets, v m x.2.t + trendTerm s.params tb x.2.t)))
    f.residYlim false σ = .ok (some (-σ * A, σ * A)) := by
  obtain ⟨_, _, _, e4, _⟩ := C140_velocities_partial dflt drive tb s Ls h dv dc hd hn a f hf orb ho v hv γ hγ
  intro A
  unfold OrbitFig.residYlim
  rw [e4, ← setYlim_some σ _ (by simpa using hne), List.map_map]
  rfl

/-- C175: the same for the panel of planet `n`. Showing every point twice does not matter. -/
theorem C175_panel_partial (dflt : ℝ) (drive : Drive) (tb : ℝ) (s : VState ℝ) (Ls : List RVLike) (h : Likes s Ls) (dv : RVLike → List String) (dc : RVLike → String → ℝ) (hd : ∀ L ∈ Ls, PlainDecorr s.params L (dv L) (dc L))
    (hn : (Ls.map RVLike.suffix).Nodup) (a : PlotArgs) (f : OrbitFig) (hf : orbitInit dflt drive tb s Ls a = .ok f)
    (orb : Nat → Synth) (ho : Elements s.params orb) (v : Nat → ℝ → ℝ) (hv : ∀ m, IsPlanet s.params m → ∀ x ∈ allObs Ls, drive x.2.t (orb m) = some (v m x.2.t))
    (γ : RVLike → ℝ) (hγ : ∀ L ∈ Ls, readPar f.st (.inst .gamma L.suffix) = .ok (γ L)) (hne : allObs Ls ≠ []) (σ : ℝ)
    (n : Nat) (hpl : IsPlanet s.params n) (hper : (orb n).per ≠ 0) (hl : Bool) (p : FoldPanel) (hp : phasefold drive tb f hl n = .ok p) :
    let A := scatterReal ((allObs Ls).map (fun x => x.2.y - γ x.1 - decorrTerm x.1 (dv x.1) (dc x.1) x.2 - ∑ m ∈ (Finset.Icc 1 s.params.numPlanets).erase n, v m x.2.t - trendTerm s.params tb x.2.t))
    p.ylim false σ = .ok (some (-σ * A, σ * A)) := by
  obtain ⟨_, e2, _⟩ := phasefold_inv dflt drive tb s Ls h dv dc hd hn a f hf orb ho v hv γ hγ n hpl hper hl p hp
  intro A
  unfold FoldPanel.ylim
  rw [e2]
  have := setYlim_some σ ((allObs Ls).map (fun x => x.2.y - γ x.1 - decorrTerm x.1 (dv x.1) (dc x.1) x.2 - ∑ m ∈ (Finset.Icc 1 s.params.numPlanets).erase n, v m x.2.t - trendTerm s.params tb x.2.t) ++
    (allObs Ls).map (fun x => x.2.y - γ x.1 - decorrTerm x.1 (dv x.1) (dc x.1) x.2 - ∑ m ∈ (Finset.Icc 1 s.params.numPlanets).erase n, v m x.2.t - trendTerm s.params tb x.2.t)) (by simpa using hne)
  rw [scatter_double] at this
  rw [← this]
  simp only [List.map_append, List.map_map]
  rfl

/-- C175: with `yscale_auto` no limits are set. -/
theorem C175_auto (f : OrbitFig) (p : FoldPanel) (σ : ℝ) : f.velYlim true σ = .ok none ∧ f.residYlim true σ = .ok none ∧ p.ylim true σ = .ok none := ⟨rfl, rfl, rfl⟩

/-- C175: the scatter about the mean is at most the RMS, and equal to it exactly if the mean is zero. -/
theorem C175_scatter (l : List ℝ) (hne : l ≠ []) :
    scatterReal l ^ 2 = rmsReal l ^ 2 - meanReal l ^ 2 ∧ scatterReal l ≤ rmsReal l ∧ (scatterReal l = rmsReal l ↔ meanReal l = 0) := by
  have h := scatter_sq l hne
  refine ⟨h, abs_le_of_sq_le_sq' (by nlinarith [sq_nonneg (meanReal l)]) (rmsReal_nonneg l) |>.2, ?_, ?_⟩
  · intro he
    rw [he] at h
    have : meanReal l ^ 2 = 0 := by linarith
    exact pow_eq_zero_iff two_ne_zero |>.1 this
  · intro hm
    rw [hm] at h
    exact (sq_eq_sq₀ (scatter_nonneg l) (rmsReal_nonneg l)).1 (by linarith)

/-- Non-vacuity of `C175_scatter`. -/
example : scatterReal [1, -1] = 1 ∧ rmsReal [1, -1] = 1 ∧ scatterReal [3, 1] = 1 ∧ rmsReal [3, 1] = √5 := by
  refine ⟨?_, ?_, ?_, ?_⟩ <;> norm_num [scatterReal, rmsReal, meanReal]

open Classical in
/-- C175: if the mean of the data of a panel is zero, at most a fraction `1/yscale_sigma²` of them is outside of the limits. -/
theorem C175_inside_partial (l : List ℝ) (hm : meanReal l = 0) (hne : l ≠ []) (σ : ℝ) :
    ∃ A, setYlim false σ (l.map some) = .ok (some (-A, A)) ∧ (0 < A → ((l.filter (fun y => decide (¬ (-A ≤ y ∧ y ≤ A)))).length : ℝ) * σ ^ 2 ≤ l.length) := by
  refine ⟨σ * scatterReal l, by rw [setYlim_some σ l hne, neg_mul], ?_⟩
  intro hA
  have hs : 0 < scatterReal l := by
    rcases (scatter_nonneg l).eq_or_lt with h0 | h0
    · rw [← h0, mul_zero] at hA; exact absurd hA (lt_irrefl _)
    · exact h0
  have hf : (l.filter (fun y => decide (¬ (-(σ * scatterReal l) ≤ y ∧ y ≤ σ * scatterReal l)))) = l.filter (fun y => decide (σ * scatterReal l < |y|)) := by
    apply List.filter_congr
    intro y _
    simp only [← abs_le, not_le]
  rw [hf]
  rcases chebyshev l (σ * scatterReal l) with h1 | h1
  · have h2 := scatter_sq l hne
    rw [hm, rmsReal_sq] at h2
    have hl : (0 : ℝ) < l.length := by
      have := List.length_pos_of_ne_nil hne
      exact_mod_cast this
    have h3 : (l.map (fun y => y ^ 2)).sum = l.length * scatterReal l ^ 2 := by
      rw [h2]; field_simp; ring
    rw [h3, mul_pow, ← mul_assoc] at h1
    exact le_of_mul_le_mul_right h1 (by positivity)
  · linarith

/-- Non-vacuity of `C175_inside_partial`. -/
example : meanReal [1, -1] = 0 ∧ setYlim false 3 ([1, -1].map some) = .ok (some (-3, 3)) := by
  refine ⟨by norm_num [meanReal], ?_⟩
  rw [setYlim_some _ _ (by simp)]
  norm_num [scatterReal, rmsReal, meanReal]

/-- C175: the RMS in the legend of an instrument is the scatter of its own residuals about their mean, and none is shown if that is zero (missing: the mean, see `C175_legend_violated`; decorrelation
variables of the kinds for which decorrelation does not work, see C31; instruments of the same name). -/
theorem C175_legend_partial (dflt : ℝ) (drive : Drive) (tb : ℝ) (s : VState ℝ) (Ls : List RVLike) (h : Likes s Ls) (dv : RVLike → List String) (dc : RVLike → String → ℝ) (hd : ∀ L ∈ Ls, PlainDecorr s.params L (dv L) (dc L))
    (hn : (Ls.map (fun L => instrumentName L.suffix)).Nodup) (a : PlotArgs) (f : OrbitFig) (hf : orbitInit dflt drive tb s Ls a = .ok f)
    (orb : Nat → Synth) (ho : Elements s.params orb) (v : Nat → ℝ → ℝ) (hv : ∀ m, IsPlanet s.params m → ∀ x ∈ allObs Ls, drive x.2.t (orb m) = some (v m x.2.t))
    (γ : RVLike → ℝ) (hγ : ∀ L ∈ Ls, readPar f.st (.inst .gamma L.suffix) = .ok (γ L)) (L : RVLike) (hL : L ∈ Ls) (hne : L.obs ≠ []) :
    let A := scatterReal (L.obs.map (fun o => o.y - γ L - decorrTerm L (dv L) (dc L) o - (∑ m ∈ Finset.Icc 1 s.params.numPlanets, v m o.t + trendTerm s.params tb o.t)))
    f.legendRms drive tb Ls true (instrumentName L.suffix) = .ok (if A = 0 then none else some (some A)) ∧
    f.legendRms drive tb Ls false (instrumentName L.suffix) = .ok none := by
  rw [instrumentName_eq] at hn ⊢
  have hn' : (Ls.map RVLike.suffix).Nodup := List.Nodup.of_map telOf (by rw [List.map_map]; exact hn)
  obtain ⟨s1, longp, g, hc, hb1, e2, e3, e4, e5, e6, e7, e8, e9, e10, e11⟩ := orbitInit_fig dflt drive tb s Ls h dv dc hd hn' a f hf
  intro A
  refine ⟨?_, rfl⟩
  have hcall : ∀ t, modelCall drive tb s1 none t = .ok (curveAt drive s.params tb none t) := by
    intro t
    rw [modelCall_fresh e4 drive tb t none (by simp), e2]
    rfl
  obtain ⟨s', d', r1, r2, _⟩ := rmsValues_agree (modelCall_orbital drive tb) hb1 (curveAt drive s.params tb none) hcall Ls e5 (fun L => decorrTerm L (dv L) (dc L))
    (fun L hL => (hd L hL).decFun hb1 e4 e2 (e5 L hL)) hn f.st e6 []
  have hoff : offsetIn s1 (curveAt drive s.params tb none) L = γ L := by
    have := e10 L hL
    rw [hγ L hL] at this
    exact (Except.ok.inj this).symm
  have hcurve : ∀ o ∈ L.obs, curveAt drive s.params tb none o.t = some (∑ m ∈ Finset.Icc 1 s.params.numPlanets, v m o.t + trendTerm s.params tb o.t) :=
    fun o ho' => curveAt_sum drive s.params tb o.t (fun m => v m o.t) (fun m hm => by
      unfold planetVel
      rw [← ho.eq hc m hm]; exact hv m hm (L, o) (mem_allObs.2 ⟨hL, ho'⟩))
  have hstd : npStd (L.obs.map (fun o => (curveAt drive s.params tb none o.t).map (fun x => o.y - offsetIn s1 (curveAt drive s.params tb none) L - x - decorrTerm L (dv L) (dc L) o))) = some A := by
    rw [← npStd_some _ (by simpa using hne), List.map_map]
    congr 1
    apply List.map_congr_left
    intro o ho'
    rw [hcurve o ho', hoff]
    exact congrArg some (by ring)
  unfold OrbitFig.legendRms
  rw [if_pos rfl, r1]
  simp only
  rw [r2 L hL, hstd]
  simp only [Option.some.injEq]

/-- A posterior with one planet, one likelihood with the given data, no decorrelation and the offset `γ`, of which the figure is made. -/
theorem plainFig (obs : List Obs) (hne : obs ≠ []) (γ : ℝ) (drive : Drive) (tb : ℝ) (a : PlotArgs) :
    ∃ s L f orb, Likes s [L] ∧ L.obs = obs ∧ L.suffix = "_a" ∧ PlainDecorr s.params L [] (fun _ => 0) ∧ orbitInit 0 drive tb s [L] a = .ok f ∧ Elements s.params orb ∧ IsPlanet s.params 1 ∧ s.params.numPlanets = 1 ∧
      trendOf s.params .dvdt = 1 ∧ trendOf s.params .curv = 2 ∧ readPar f.st (.inst .gamma L.suffix) = .ok γ ∧ (orb 1).per = 1 / 2 := by
  obtain ⟨s0, h1, _, _, h4, _⟩ := halfPlanet_user.model
  have hb : Built s0 := .model _ s0 halfPlanet_user h1
  obtain ⟨s', L, k1, k2, k3, k4'⟩ := RVLike.new_keeps hb obs "_a" [] []
  obtain ⟨b1', bon, b3, b4, b5, b6, _⟩ := RVLike.new_built _ _ _ _ _ _ _ hb k1
  rw [h4] at k2 k3 k4'
  have hl' : Likes s' [L] := .like s0 s' [] L (.start _ hb) _ _ _ _ k1
  have hmem' : Key.inst .gamma "_a" ∈ s'.params.items.keys := by
    have := (b1'.inv.1.ext _ _ rfl rfl bon.gamma).1
    rwa [b3] at this
  obtain ⟨s, hs⟩ : ∃ s, s = { s' with params := s'.params.setItem (.inst .gamma "_a") ⟨γ, .yes, none, false⟩ } := ⟨_, rfl⟩
  have hl : Likes s [L] := by rw [hs]; exact .edit s' [L] _ _ hl' (.inl hmem') (by simp)
  have b1 : Built s := hl.built.1
  have k4 : ∀ k q, halfPlanet.items.get? k = some q → s.params.items.get? k = some q := by
    intro k q hq
    rw [hs]
    show (s'.params.items.set (.inst .gamma "_a") _).get? k = _
    rw [Dict.get?_set_ne _ _ ?_]
    · exact k4' k q hq
    · rintro rfl
      have : halfPlanet.items.get? (.inst .gamma "_a") = none := rfl
      rw [this] at hq
      cases hq
  have hplain : PlainDecorr s.params L [] (fun _ => 0) := PlainDecorr.none (by rw [b5]; rfl) _
  have hcomp : Complete s.params := ⟨b1.inv.1.nodup, fun x hx m hm => (b1.inv.1.orb x m).2 ⟨hx, hm⟩⟩
  have hN : s.params.numPlanets = 1 := by rw [hs]; exact k2
  have hB : s.params.basis = .perTpEWK := by rw [hs]; exact k3
  have hobs : allObs [L] ≠ [] := by
    rw [show allObs [L] = L.obs.map (fun o => (L, o)) by simp [allObs], b4]
    simpa using hne
  have hmem : ∀ k q, halfPlanet.items.get? k = some q → k ∈ s.params.items.keys := fun k q hq => Dict.mem_keys_of_get? _ (k4 k q hq)
  obtain ⟨f, hf⟩ := (C140_made_partial 0 drive tb s [L] hl (fun _ => []) (fun _ _ => 0) (by simpa using hplain) (by simp) a).2
    ⟨hmem .dvdt _ rfl, hmem .curv _ rfl, .inl hobs⟩
  obtain ⟨q, g, hq, hg, hgv⟩ := C140_offset 0 drive tb s [L] hl (fun _ => []) (fun _ _ => 0) (by simpa using hplain) (by simp) a f hf L (by simp)
  have hq' : q = ⟨γ, .yes, none, false⟩ := by
    have : s.params.items.get? (.inst .gamma "_a") = some ⟨γ, .yes, none, false⟩ := by
      rw [hs]; exact Dict.get?_set_self _ _ _
    rw [b3, this] at hq
    exact (Option.some.inj hq).symm
  have hgγ : g = γ := by
    rw [hgv (by rw [hq']; simp [Analytic]), hq']
  have htr : ∀ k q, halfPlanet.items.get? k = some q → trendOf s.params k = q.value := by
    intro k q hq
    unfold trendOf
    rw [k4 k q hq]
    rfl
  refine ⟨s, L, f, _, hl, b4, b3, hplain, hf, elements_exist _ hcomp, ⟨le_refl _, by rw [hN]⟩, hN, htr .dvdt ⟨1, .yes, none, false⟩ rfl, htr .curv ⟨2, .yes, none, false⟩ rfl, by rw [hg, hgγ], ?_⟩
  simp only [hB]
  show valsOf s.params 1 .per = _
  have hval : valueOf s.params .per 1 = some (1 / 2) := by
    unfold valueOf
    rw [k4 (.orb .per 1) ⟨1 / 2, _, _, _⟩ rfl]
    rfl
  simp only [valsOf, hval, Option.getD_some]

/-- Non-vacuity of `C175_velocities_partial` and `C175_panel_partial`: a figure whose two velocities have mean zero. -/
example (drive : Drive) (v : ℝ) (hd : ∀ t o, drive t o = some v) (tb : ℝ) : ∃ s L f p, Likes s [L] ∧ orbitInit 0 drive tb s [L] {} = .ok f ∧ f.velYlim false 3 = .ok (some (-3, 3)) ∧
    phasefold drive tb f false 1 = .ok p ∧ ∃ A, p.ylim false 3 = .ok (some (-3 * A, 3 * A)) := by
  obtain ⟨s, L, f, orb, h1, h2, h3, h4, h5, h6, h7, h8, h9, h10, h11, h12⟩ := plainFig [{ t := 0, y := 1, err := 1, dec := fun _ => .nan }, { t := 1, y := -1, err := 1, dec := fun _ => .nan }] (by simp) 0 drive tb {}
  have hall : allObs [L] = [(L, { t := 0, y := 1, err := 1, dec := fun _ => .nan }), (L, { t := 1, y := -1, err := 1, dec := fun _ => .nan })] := by simp [allObs, h2]
  have e2 := C175_velocities_partial 0 drive tb s [L] h1 (fun _ => []) (fun _ _ => 0) (by simpa using h4) (by simp) {} f h5 orb h6 (fun _ _ => v) (fun m _ x _ => hd _ _) (fun _ => 0) (by simpa using h11) (by rw [hall]; simp) 3
  have hper : 0 < (orb 1).per := by rw [h12]; norm_num
  obtain ⟨p, hp, _⟩ := C141_panel_partial 0 drive tb s [L] h1 (fun _ => []) (fun _ _ => 0) (by simpa using h4) (by simp) {} f h5 orb h6 (fun _ _ => v) (fun m _ x _ => hd _ _) (fun _ => 0) (by simpa using h11) 1 h7 hper.ne'
  have e3 := C175_panel_partial 0 drive tb s [L] h1 (fun _ => []) (fun _ _ => 0) (by simpa using h4) (by simp) {} f h5 orb h6 (fun _ _ => v) (fun m _ x _ => hd _ _) (fun _ => 0) (by simpa using h11) (by rw [hall]; simp) 3 1 h7 hper.ne' false p hp
  refine ⟨s, L, f, p, h1, h5, ?_, hp, _, e3⟩
  rw [e2, hall]
  simp only [List.map_cons, List.map_nil, decorrTerm_nil]
  norm_num [scatterReal, rmsReal, meanReal]

/-- C175 fails: whatever `yscale_sigma` is, there is a figure in which the residuals panel has proper limits and none of the residuals is inside; nor does the RMS in the legend tell. -/
theorem C175_hidden_violated (σ : ℝ) (hσ : 0 < σ) (drive : Drive) (v : ℝ) (hd : ∀ t o, drive t o = some v) (tb : ℝ) :
    ∃ s L f, Likes s [L] ∧ orbitInit 0 drive tb s [L] {} = .ok f ∧ f.rawresid = [some (σ + 3), some (σ + 1)] ∧
      f.residYlim false σ = .ok (some (-σ, σ)) ∧ f.legendRms drive tb [L] true "a".toList = .ok (some (some 1)) ∧ 1 < rmsReal [σ + 3, σ + 1] := by
  obtain ⟨s, L, f, orb, h1, h2, h3, h4, h5, h6, h7, h8, h9, h10, h11, _⟩ := plainFig [{ t := tb, y := 1, err := 1, dec := fun _ => .nan }, { t := tb, y := -1, err := 1, dec := fun _ => .nan }] (by simp)
    (-(σ + 2) - v) drive tb {}
  have hall : allObs [L] = [(L, { t := tb, y := 1, err := 1, dec := fun _ => .nan }), (L, { t := tb, y := -1, err := 1, dec := fun _ => .nan })] := by
    simp [allObs, h2]
  have htr : trendTerm s.params tb tb = 0 := by unfold trendTerm; simp
  obtain ⟨_, _, _, e4, _⟩ := C140_velocities_partial 0 drive tb s [L] h1 (fun _ => []) (fun _ _ => 0) (by simpa using h4) (by simp) {} f h5 orb h6 (fun _ _ => v) (fun m _ x _ => hd _ _) (fun _ => -(σ + 2) - v) (by simpa using h11)
  have e5 := C175_residuals_partial 0 drive tb s [L] h1 (fun _ => []) (fun _ _ => 0) (by simpa using h4) (by simp) {} f h5 orb h6 (fun _ _ => v) (fun m _ x _ => hd _ _) (fun _ => -(σ + 2) - v) (by simpa using h11) (by rw [hall]; simp) σ
  have e6 := (C175_legend_partial 0 drive tb s [L] h1 (fun _ => []) (fun _ _ => 0) (by simpa using h4) (by simp) {} f h5 orb h6 (fun _ _ => v) (fun m _ x _ => hd _ _) (fun _ => -(σ + 2) - v) (by simpa using h11) L (by simp) (by rw [h2]; simp)).1
  have hs1 : ∀ A B : ℝ, A = σ + 3 → B = σ + 1 → scatterReal [A, B] = 1 := by
    intro A B hA hB
    have hm : meanReal [A, B] = σ + 2 := by simp [meanReal, hA, hB]; ring
    unfold scatterReal
    rw [hm, hA, hB]
    have h1 : (σ + 3 - (σ + 2)) = 1 := by ring
    have h2 : (σ + 1 - (σ + 2)) = -1 := by ring
    simp only [List.map_cons, List.map_nil, h1, h2]
    norm_num [rmsReal]
  refine ⟨s, L, f, h1, h5, ?_, ?_, ?_, ?_⟩
  · rw [e4, hall]
    simp only [List.map_cons, List.map_nil, h8, htr, decorrTerm_nil]
    norm_num
    constructor <;> ring
  · rw [e5, hall]
    simp only [List.map_cons, List.map_nil, h8, htr, decorrTerm_nil]
    rw [hs1 _ _ (by norm_num; ring) (by norm_num; ring)]
    simp
  · simp only [h2, List.map_cons, List.map_nil, h8, htr, decorrTerm_nil] at e6
    rw [hs1 _ _ (by norm_num; ring) (by norm_num; ring), h3] at e6
    rw [if_neg one_ne_zero] at e6
    exact e6
  · have : (1 : ℝ) ^ 2 < rmsReal [σ + 3, σ + 1] ^ 2 := by
      rw [rmsReal_sq]
      norm_num
      nlinarith
    exact lt_of_pow_lt_pow_left₀ 2 (rmsReal_nonneg _) this

/-- C175 fails: an instrument with one observation has no RMS in the legend, although its residual is not zero; and alone in a figure it leaves the vertical axis without extent. -/
theorem C175_legend_violated (σ r : ℝ) (drive : Drive) (v : ℝ) (hd : ∀ t o, drive t o = some v) (tb : ℝ) :
    ∃ s L f, Likes s [L] ∧ orbitInit 0 drive tb s [L] {} = .ok f ∧ f.rawresid = [some r] ∧
      f.residYlim false σ = .ok (some (0, 0)) ∧ f.legendRms drive tb [L] true "a".toList = .ok none ∧ rmsReal [r] = |r| := by
  obtain ⟨s, L, f, orb, h1, h2, h3, h4, h5, h6, h7, h8, h9, h10, h11, _⟩ := plainFig [{ t := tb, y := 1, err := 1, dec := fun _ => .nan }] (by simp) (1 - r - v) drive tb {}
  have hall : allObs [L] = [(L, { t := tb, y := 1, err := 1, dec := fun _ => .nan })] := by simp [allObs, h2]
  have htr : trendTerm s.params tb tb = 0 := by unfold trendTerm; simp
  obtain ⟨_, _, _, e4, _⟩ := C140_velocities_partial 0 drive tb s [L] h1 (fun _ => []) (fun _ _ => 0) (by simpa using h4) (by simp) {} f h5 orb h6 (fun _ _ => v) (fun m _ x _ => hd _ _) (fun _ => 1 - r - v) (by simpa using h11)
  have e5 := C175_residuals_partial 0 drive tb s [L] h1 (fun _ => []) (fun _ _ => 0) (by simpa using h4) (by simp) {} f h5 orb h6 (fun _ _ => v) (fun m _ x _ => hd _ _) (fun _ => 1 - r - v) (by simpa using h11) (by rw [hall]; simp) σ
  have e6 := (C175_legend_partial 0 drive tb s [L] h1 (fun _ => []) (fun _ _ => 0) (by simpa using h4) (by simp) {} f h5 orb h6 (fun _ _ => v) (fun m _ x _ => hd _ _) (fun _ => 1 - r - v) (by simpa using h11) L (by simp) (by rw [h2]; simp)).1
  have hs1 : ∀ A : ℝ, scatterReal [A] = 0 := by
    intro A
    simp [scatterReal, rmsReal, meanReal]
  refine ⟨s, L, f, h1, h5, ?_, ?_, ?_, ?_⟩
  · rw [e4, hall]
    simp only [List.map_cons, List.map_nil, h8, htr, decorrTerm_nil]
    norm_num
    ring
  · rw [e5, hall]
    simp only [List.map_cons, List.map_nil]
    rw [hs1]
    simp
  · simp only [h2, List.map_cons, List.map_nil] at e6
    rw [hs1, h3] at e6
    rw [if_pos rfl] at e6
    exact e6
  · unfold rmsReal
    simp [Real.sqrt_sq_eq_abs]

end Radvel
