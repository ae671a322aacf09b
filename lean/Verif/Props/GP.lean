import Verif.Lemmas.GPMatrix
import Verif.Lemmas.GPWitness
import Verif.Props.GPKernel

/-!
# C33, C34, C38, C39, C86-C89: Gaussian-process likelihoods

`modelCall drive tb` is `RVModel.__call__`; every theorem holds for any model that does not read the values in the dictionary (`Curve.DictFree`, proved of `modelCall` in
`modelCall_dictFree`).
-/

namespace Radvel
open Real Matrix ProbabilityTheory

/-! ## C88 -/

open Classical in
/-- C88: in every reachable state whose stored distances are those of the data (see C87), and for hyperparameters with which no division by zero occurs, `logprob` is the
logarithm of the multivariate normal density of the residuals `y - gamma - model` with the documented covariance matrix, and `-inf` if that matrix is not positive
definite. -/
theorem C88_logprob (mod : Curve) (hmod : mod.DictFree) (G : GPLike) (g : GPState) (Ls : List RVLike) (hg : GPReach mod G g Ls) (hd : g.AtData G) (h : String → ℝ)
    (γ jit : ℝ) (M : ℝ → ℝ) (hc : GPContext mod G g h γ jit M) (hr : Regular g.kernel.kind h) :
    (G.logprob mod g).2 = .ok (if (dataCov g.kernel.kind h G.rv.obs jit).PosDef then
      .fin (log (mvnDensity (dataCov g.kernel.kind h G.rv.obs jit) (fun i => G.rv.obs[i].y - γ - M G.rv.obs[i].t))) else .neg) :=
  logprob_regular hmod hg.inv hd hc hr

theorem dataCov_posDef (kind : KernelKind) (h : String → ℝ) (obs : List Obs) (jit : ℝ) (h0 : ∀ o ∈ obs, o.err ≠ 0 ∨ jit ≠ 0)
    (hu : kind = .quasiPer → Unclipped h (obs.map Obs.t)) : (dataCov kind h obs jit).PosDef := by
  have := posDef_of_psd (gpCov_psd kind h (obs.map Obs.t) hu (fun i : Fin obs.length => obs[i].t) (fun i => List.mem_map.2 ⟨_, List.getElem_mem _, rfl⟩))
    (fun i => obs[i].err ^ 2 + jit ^ 2) (fun i => by
      rcases h0 _ (List.getElem_mem (n := i) i.2) with h | h
      · have : 0 < (obs[i].err) ^ 2 := by have : obs[i].err ≠ 0 := h; positivity
        positivity
      · positivity)
  exact this

/-- C88 and C36 together: with non-zero error bars or jitter the value is finite. -/
theorem C88_finite (mod : Curve) (hmod : mod.DictFree) (G : GPLike) (g : GPState) (Ls : List RVLike) (hg : GPReach mod G g Ls) (hd : g.AtData G) (h : String → ℝ)
    (γ jit : ℝ) (M : ℝ → ℝ) (hc : GPContext mod G g h γ jit M) (hr : Regular g.kernel.kind h) (h0 : ∀ o ∈ G.rv.obs, o.err ≠ 0 ∨ jit ≠ 0)
    (hu : g.kernel.kind = .quasiPer → Unclipped h G.x) :
    ∃ l, (G.logprob mod g).2 = .ok (.fin l) ∧ exp l = mvnDensity (dataCov g.kernel.kind h G.rv.obs jit) (fun i => G.rv.obs[i].y - γ - M G.rv.obs[i].t) := by
  have hp := dataCov_posDef g.kernel.kind h G.rv.obs jit h0 hu
  refine ⟨_, ?_, exp_log ?_⟩
  · rw [C88_logprob mod hmod G g Ls hg hd h γ jit M hc hr, if_pos hp]
  · unfold mvnDensity
    have := hp.det_pos
    positivity

/-- Two observations for non-vacuity. -/
noncomputable def gpObs : List Obs := [{ t := 0, y := 3, err := 1 }, { t := 1, y := 4, err := 2 }]

theorem exampleHyper_regular (kind : KernelKind) : Regular kind exampleHyper := (exampleKernel_has kind [] []).2

theorem exampleHyper_unclipped : Unclipped exampleHyper (gpObs.map Obs.t) := by
  intro a ha b hb
  have h7 : exampleHyper "gp_explength" = 7 := by simp [exampleHyper]
  have h1 : exampleHyper "gp_perlength" = 1 := by simp [exampleHyper]
  rw [h7, h1]
  constructor
  · simp only [gpObs, List.map_cons, List.map_nil, List.mem_cons, List.not_mem_nil, or_false] at ha hb
    rcases ha with rfl | rfl <;> rcases hb with rfl | rfl <;> norm_num
  · have := sin_sq_le_one (π * |a - b| / exampleHyper "gp_per")
    linarith

theorem GPReach.put {mod : Curve} {G : GPLike} {g : GPState} {Ls : List RVLike} (hg : GPReach mod G g Ls) {h : String → ℝ} {γ jit : ℝ}
    (hl : (g.st.names.map (gpRow h γ jit)).length = g.st.rows.length) : GPReach mod G (g.put h γ jit) Ls := .write g _ hg _ hl

/-- Non-vacuity of C88: a likelihood of each kind. -/
example (drive : Drive) (tb : ℝ) (kind : KernelKind) : ∃ G g, GPReach (fun s t => modelCall drive tb s none t) G g [G.rv] ∧ g.AtData G ∧ g.kernel.kind = kind ∧
    GPContext (fun s t => modelCall drive tb s none t) G g exampleHyper 1 0 (fun _ => 0) ∧ Regular g.kernel.kind exampleHyper ∧ (∀ o ∈ G.rv.obs, o.err ≠ 0 ∨ (0 : ℝ) ≠ 0) ∧
    G.rv.obs.length = 2 ∧ Unclipped exampleHyper G.x := by
  obtain ⟨G, g, h1, h2, h3, h4, h5, h6, h7, h8⟩ := gpWitness drive tb kind gpObs
  refine ⟨G, _, h1.put (h6 exampleHyper 1 0), h2, h4, h8 _ _ _, exampleHyper_regular _, ?_, by rw [h5]; rfl, ?_⟩
  · rw [h5]; intro o ho
    simp only [gpObs, List.mem_cons, List.not_mem_nil, or_false] at ho
    rcases ho with rfl | rfl <;> norm_num
  · unfold GPLike.x; rw [h5]; exact exampleHyper_unclipped

/-! ## C33 -/

/-- C33 for GP likelihoods (missing: hyperparameters with zero length scale or period; celerite, where it is false): permuting the observations, before the kernel
computes its distances, does not change `logprob`. -/
theorem C33_gp_partial (mod : Curve) (hmod : mod.DictFree) (G G' : GPLike) (g g' : GPState) (Ls Ls' : List RVLike) (hg : GPReach mod G g Ls) (hg' : GPReach mod G' g' Ls')
    (hd : g.AtData G) (hd' : g'.AtData G') (hk : g'.kernel.kind = g.kernel.kind) (hp : G.rv.obs.Perm G'.rv.obs) (h : String → ℝ)
    (γ jit : ℝ) (M : ℝ → ℝ) (hc : GPContext mod G g h γ jit M) (hc' : GPContext mod G' g' h γ jit M) (hr : Regular g.kernel.kind h) :
    (G'.logprob mod g').2 = (G.logprob mod g).2 := by
  rw [C88_logprob mod hmod G g Ls hg hd h γ jit M hc hr, C88_logprob mod hmod G' g' Ls' hg' hd' h γ jit M hc' (by rw [hk]; exact hr), hk]
  obtain ⟨e, he⟩ := perm_equiv hp
  have hC : dataCov g.kernel.kind h G'.rv.obs jit = (dataCov g.kernel.kind h G.rv.obs jit).submatrix e e := by
    ext i j
    rw [Matrix.submatrix_apply]
    unfold dataCov
    rw [he i, he j]
    simp only [EmbeddingLike.apply_eq_iff_eq]
  have hv : (fun i : Fin G'.rv.obs.length => G'.rv.obs[i].y - γ - M G'.rv.obs[i].t) = fun i => (fun i : Fin G.rv.obs.length => G.rv.obs[i].y - γ - M G.rv.obs[i].t) (e i) := by
    funext i; rw [he i]
  rw [hC, hv, mvnDensity_equiv hp.length_eq.symm e (dataCov g.kernel.kind h G.rv.obs jit) (fun i : Fin G.rv.obs.length => G.rv.obs[i].y - γ - M G.rv.obs[i].t)]
  by_cases hpd : (dataCov g.kernel.kind h G.rv.obs jit).PosDef
  · rw [if_pos hpd, if_pos ((posDef_equiv e _).2 hpd)]
  · rw [if_neg hpd, if_neg (fun hh => hpd ((posDef_equiv e _).1 hh))]

/-- Non-vacuity of `C33_gp_partial`: the two observations in both orders. -/
example (drive : Drive) (tb : ℝ) (kind : KernelKind) : ∃ G G' g g', GPReach (fun s t => modelCall drive tb s none t) G g [G.rv] ∧
    GPReach (fun s t => modelCall drive tb s none t) G' g' [G'.rv] ∧ g.AtData G ∧ g'.AtData G' ∧ g'.kernel.kind = g.kernel.kind ∧ G.rv.obs.Perm G'.rv.obs ∧
    GPContext (fun s t => modelCall drive tb s none t) G g exampleHyper 1 0 (fun _ => 0) ∧ GPContext (fun s t => modelCall drive tb s none t) G' g' exampleHyper 1 0 (fun _ => 0) ∧
    Regular g.kernel.kind exampleHyper := by
  obtain ⟨G, g, h1, h2, h3, h4, h5, h6, h7, h8⟩ := gpWitness drive tb kind gpObs
  obtain ⟨G', g', h1', h2', h3', h4', h5', h6', h7', h8'⟩ := gpWitness drive tb kind gpObs.reverse
  refine ⟨G, G', _, _, h1.put (h6 exampleHyper 1 0), h1'.put (h6' exampleHyper 1 0), h2, h2', ?_, ?_, h8 _ _ _, h8' _ _ _, exampleHyper_regular _⟩
  · exact h4'.trans h4.symm
  · rw [h5, h5']; exact (List.reverse_perm _).symm

/-- C33 for celerite is false: of two orders of the same two observations, one gives every time its own velocity and uncertainty, the other one exchanges them. -/
theorem C33_celerite_violated : ∃ obs obs' : List Obs, obs.Perm obs' ∧ (CelLike.new obs).solverInput = obs.map (fun o => (o.t, o)) ∧
    ¬ (CelLike.new obs').solverInput.Perm (CelLike.new obs).solverInput := by
  refine ⟨[{ t := 0, y := 3, err := 1 }, { t := 1, y := 4, err := 2 }], [{ t := 1, y := 4, err := 2 }, { t := 0, y := 3, err := 1 }], List.Perm.swap _ _ _,
    C85_sorted_partial _ (by simp), ?_⟩
  rw [C85_unsorted_violated _ _ _ _ _ _ (by norm_num), C85_sorted_partial _ (by simp)]
  intro h
  have := h.map (fun p => (p.1, p.2.y))
  have hm : ((0 : ℝ), (4 : ℝ)) ∈ ([(0, 3), (1, 4)] : List (ℝ × ℝ)) := this.mem_iff.1 (by simp)
  simp at hm

/-! ## C34 -/

/-- What runs of evaluations leave as it is. -/
structure RunFrame (G : GPLike) (g g' : GPState) : Prop where
  indices : g'.st.indices = g.st.indices
  basis : g'.st.params.basis = g.st.params.basis
  planets : g'.st.params.numPlanets = g.st.params.numPlanets
  length : g'.st.rows.length = g.st.rows.length
  kind : g'.kernel.kind = g.kernel.kind
  atData : g.AtData G → g'.AtData G

theorem RunFrame.trans {G : GPLike} {a b c : GPState} (h : RunFrame G a b) (h' : RunFrame G b c) : RunFrame G a c :=
  ⟨h'.indices.trans h.indices, h'.basis.trans h.basis, h'.planets.trans h.planets, h'.length.trans h.length, h'.kind.trans h.kind, h'.atData ∘ h.atData⟩

theorem RunFrame.update {G : GPLike} {g : GPState} {k : Kernel} (hk : KFrame (G.update g).1.kernel k) (ha : g.AtData G → k.x1 = G.x ∧ k.x2 = G.x) :
    RunFrame G g { (G.update g).1 with kernel := k } := by
  have f := update_frame G g
  exact ⟨f.indices, f.basis, f.planets, by rw [f.rows], hk.kind.trans f.kind, ha⟩

theorem GPRun.frame {mod : Curve} {G : GPLike} {g g' : GPState} (h : GPRun mod G g g') : RunFrame G g g' := by
  induction h with
  | start => exact ⟨rfl, rfl, rfl, rfl, rfl, id⟩
  | logprob g' h ih =>
    obtain ⟨k, h1, h2, h3, h4⟩ := logprob_state mod G g'
    rw [h1]
    exact ih.trans (.update h2 (fun ha => ⟨h3.trans ha.1, h4.trans ha.2⟩))
  | predict g' g'' h xpred p hp ih =>
    obtain ⟨k, h1, h2⟩ := predict_state mod G xpred g'
    have ha := predict_atData mod G xpred g' g'' p hp
    rw [hp] at h1
    simp only at h1
    subst h1
    exact ih.trans (.update h2 (fun _ => ha))
  | residuals g' g'' h r hp ih =>
    have e := residuals_state mod G g'
    obtain ⟨k, h1, h2⟩ := predict_state mod G G.x g'
    rw [hp] at e
    simp only at e
    unfold GPLike.residuals at hp
    rcases hq : G.predict mod G.x g' with ⟨g2, res⟩
    rw [hq] at hp e h1
    cases res with
    | error e => cases hp
    | ok p =>
      have ha := predict_atData mod G G.x g' g2 p hq
      simp only at e h1
      subst e
      subst h1
      exact ih.trans (.update h2 (fun _ => ha))
  | write g' h rows hl ih => exact ih.trans ⟨rfl, rfl, rfl, hl, rfl, id⟩

theorem GPRun.reach {mod : Curve} {G : GPLike} {g g' : GPState} {Ls : List RVLike} (h : GPRun mod G g g') (hg : GPReach mod G g Ls) : GPReach mod G g' Ls := by
  induction h with
  | start => exact hg
  | logprob g' h ih => exact .logprob _ _ ih
  | predict g' g'' h xpred p hp ih =>
    have := GPReach.predict _ _ ih xpred
    rw [hp] at this; exact this
  | residuals g' g'' h r hp ih =>
    have := GPReach.residuals _ _ ih
    rw [hp] at this; exact this
  | write g' h rows hl ih => exact .write _ _ ih _ hl

/-- C34 for GP likelihoods (missing: earlier calls of `predict` that raised an exception, C87, and a disabled quasi-periodic kernel, `C34_gp_stale_violated`; in both cases
it is false): after any sequence of evaluations, with other values in the vector, `logprob` with the values `rows` is what it would have been at the start. -/
theorem C34_gp_partial (mod : Curve) (hmod : mod.DictFree) (G : GPLike) (g g' : GPState) (Ls : List RVLike) (hg : GPReach mod G g Ls) (hd : g.AtData G)
    (hrun : GPRun mod G g g') (rows : List (Row ℝ)) (hl : rows.length = g.st.rows.length) (h : String → ℝ) (γ jit : ℝ) (M : ℝ → ℝ)
    (hc : GPContext mod G { g with st := { g.st with rows := rows } } h γ jit M) (hr : Regular g.kernel.kind h) :
    (G.logprob mod { g' with st := { g'.st with rows := rows } }).2 = (G.logprob mod { g with st := { g.st with rows := rows } }).2 := by
  have f := hrun.frame
  have r1 : GPReach mod G { g with st := { g.st with rows := rows } } Ls := .write _ _ hg _ hl
  have r2 : GPReach mod G { g' with st := { g'.st with rows := rows } } Ls := .write _ _ (hrun.reach hg) _ (by rw [hl, f.length])
  have hc' : GPContext mod G { g' with st := { g'.st with rows := rows } } h γ jit M := by
    refine ⟨?_, hc.gamma, hc.jitter, ?_⟩
    · intro slot hs
      have hs' : slot.toList ∈ g'.kernel.kind.slots := hs
      rw [f.kind] at hs'
      obtain ⟨k, hk, hn, i, r, hi, hr⟩ := hc.hyper slot hs'
      exact ⟨k, hk, hn, i, r, by rw [← hi]; exact congrArg (fun d => Dict.get? d k) f.indices, hr⟩
    · intro o ho
      rw [← hc.model o ho]
      exact hmod { g.st with rows := rows } { g'.st with rows := rows } rfl f.indices f.basis f.planets _
  rw [C88_logprob mod hmod G _ Ls r1 hd h γ jit M hc hr, C88_logprob mod hmod G _ Ls r2 (f.atData hd) h γ jit M hc' (by show Regular g'.kernel.kind h; rw [f.kind]; exact hr)]
  show Except.ok _ = Except.ok _
  rw [f.kind]

/-- Non-vacuity of `C34_gp_partial`: an evaluation with other values comes first. -/
example (drive : Drive) (tb : ℝ) (kind : KernelKind) : ∃ G g g' rows, GPReach (fun s t => modelCall drive tb s none t) G g [G.rv] ∧ g.AtData G ∧
    GPRun (fun s t => modelCall drive tb s none t) G g g' ∧ rows.length = g.st.rows.length ∧ g'.kernel.cov ≠ none ∧
    GPContext (fun s t => modelCall drive tb s none t) G { g with st := { g.st with rows := rows } } exampleHyper 1 0 (fun _ => 0) ∧ Regular g.kernel.kind exampleHyper := by
  obtain ⟨G, g, h1, h2, h3, h4, h5, h6, h7, h8⟩ := gpWitness drive tb kind gpObs
  have hr := logprob_raw (modelCall_dictFree drive tb) (h1.put (h6 exampleHyper 2 3)).inv (h8 _ _ _) (exampleHyper_regular _)
  refine ⟨G, g, _, _, h1, h2, .logprob _ _ (.write _ _ (.start g) _ (h6 exampleHyper 2 3)), h6 exampleHyper 1 0, ?_, h8 _ _ _, exampleHyper_regular _⟩
  intro hcov
  have := hr.2.symm.trans hcov
  cases this

theorem mvnDensity_pos {n : Nat} {C : Matrix (Fin n) (Fin n) ℝ} (hp : C.PosDef) (r : Fin n → ℝ) : 0 < mvnDensity C r := by
  unfold mvnDensity
  have := hp.det_pos
  positivity

/-- C34 in full is false for GP likelihoods: with a quasi-periodic kernel whose amplitude is zero, the value is `-inf` at first, but finite after an evaluation with
another amplitude (whose covariance matrix is used). -/
theorem C34_gp_stale_violated (drive : Drive) (tb : ℝ) : ∃ G g g' rows, GPReach (fun s t => modelCall drive tb s none t) G g [G.rv] ∧ g.AtData G ∧
    GPRun (fun s t => modelCall drive tb s none t) G g g' ∧ rows.length = g.st.rows.length ∧
    (G.logprob (fun s t => modelCall drive tb s none t) { g with st := { g.st with rows := rows } }).2 = .ok .neg ∧
    ∃ l, (G.logprob (fun s t => modelCall drive tb s none t) { g' with st := { g'.st with rows := rows } }).2 = .ok (.fin l) := by
  obtain ⟨G, g, h1, h2, h3, h4, h5, h6, h7, h8⟩ := gpWitness drive tb .quasiPer gpObs
  have hr := logprob_raw (modelCall_dictFree drive tb) (h1.put (h6 exampleHyper 2 3)).inv (h8 _ _ _) (exampleHyper_regular _)
  set mod : Curve := fun s t => modelCall drive tb s none t with hmod
  set g' := (G.logprob mod (g.put exampleHyper 2 3)).1 with hg'
  have hrun : GPRun mod G g g' := .logprob _ _ (.write _ _ (.start g) _ (h6 exampleHyper 2 3))
  have f := hrun.frame
  let h0 : String → ℝ := fun slot => if slot = "gp_amp" then 0 else 1
  have hc0 : GPContext mod G (g.put h0 0 0) h0 0 0 (fun _ => 0) := h8 h0 0 0
  refine ⟨G, g, g', g.st.names.map (gpRow h0 0 0), h1, h2, hrun, h6 h0 0 0, ?_, ?_⟩
  · have := logprob_disabled (modelCall_dictFree drive tb) (h1.put (h6 h0 0 0)).inv h2 hc0 h4 (by simp [h0]) (by simp [h0]) (by simp [h0]) (by simp [h0])
    have hn : (g.put h0 0 0).kernel.cov = none := h3
    rw [hn] at this
    exact this
  · have hreach : GPReach mod G { g' with st := { g'.st with rows := g.st.names.map (gpRow h0 0 0) } } [G.rv] :=
      .write _ _ (hrun.reach h1) _ (by rw [h6 h0 0 0, f.length])
    have hc' : GPContext mod G { g' with st := { g'.st with rows := g.st.names.map (gpRow h0 0 0) } } h0 0 0 (fun _ => 0) := by
      refine ⟨?_, hc0.gamma, hc0.jitter, ?_⟩
      · intro slot hs
        have hs' : slot.toList ∈ g'.kernel.kind.slots := hs
        rw [f.kind] at hs'
        obtain ⟨k, hk, hn, i, r, hi, hr⟩ := hc0.hyper slot hs'
        exact ⟨k, hk, hn, i, r, by rw [← hi]; exact congrArg (fun d => Dict.get? d k) f.indices, hr⟩
      · intro o ho
        rw [← hc0.model o ho]
        exact modelCall_dictFree drive tb { g.st with rows := g.st.names.map (gpRow h0 0 0) } { g'.st with rows := g.st.names.map (gpRow h0 0 0) } rfl f.indices f.basis f.planets _
    have := logprob_disabled (modelCall_dictFree drive tb) hreach.inv (f.atData h2) hc' (f.kind.trans h4) (by simp [h0]) (by simp [h0]) (by simp [h0]) (by simp [h0])
    have hcov : ({ g' with st := { g'.st with rows := g.st.names.map (gpRow h0 0 0) } } : GPState).kernel.cov = _ := hr.2
    rw [hcov] at this
    simp only at this
    obtain ⟨K, hK, hKm, hKn, hKe⟩ := addErrors_table (gpCov g.kernel.kind exampleHyper) G.rv.obs 3
    have e1 : (g.put exampleHyper 2 3).kernel.x1 = G.rv.obs.map Obs.t := h2.1
    have e2 : (g.put exampleHyper 2 3).kernel.x2 = G.rv.obs.map Obs.t := h2.2
    have e3 : (g.put exampleHyper 2 3).kernel.kind = g.kernel.kind := rfl
    rw [e1, e2, e3, hK] at this
    have hpd : (dataCov g.kernel.kind exampleHyper G.rv.obs 3).PosDef :=
      dataCov_posDef _ _ _ _ (fun o _ => .inr (by norm_num)) (fun _ => by rw [h5]; exact exampleHyper_unclipped)
    have hv := gpValue_spec K hKm hKn (dataCov g.kernel.kind exampleHyper G.rv.obs 3) hKe (dataCov_symm _ _ _ _) (G.rv.obs.map (fun o => some (o.y - 0 - 0))) (by simp)
      (fun i => G.rv.obs[i].y - 0 - 0) (by intro i; rw [List.getD_eq_getElem _ _ (by simp)]; simp)
    rw [hv, if_pos hpd] at this
    exact ⟨_, this⟩

/-! ## C38 -/

/-- C38 for the squared-exponential and periodic kernels (missing: the quasi-periodic one, where it is false, `C38_quasi_violated`): with amplitude zero the GP likelihood
has the value of the white-noise likelihood of the same data. (gamma is not marginalised analytically: GP likelihoods never do that.) -/
theorem C38_white_partial (mod : Curve) (hmod : mod.DictFree) (G : GPLike) (g : GPState) (Ls : List RVLike) (hg : GPReach mod G g Ls) (hd : g.AtData G) (h : String → ℝ)
    (γ jit : ℝ) (M : ℝ → ℝ) (hc : GPContext mod G g h γ jit M) (hr : Regular g.kernel.kind h) (hk : g.kernel.kind ≠ .quasiPer) (h0 : h "gp_amp" = 0)
    (hna : ¬ AnalyticGamma g.st G.rv.gammaIdx) (he : ∀ o ∈ G.rv.obs, o.err ≠ 0 ∨ jit ≠ 0) :
    ∃ l, (G.logprob mod g).2 = .ok (.fin l) ∧ G.rv.logprob mod g.st = .ok (g.st, .fin l) := by
  obtain ⟨rg, hg1, hg2⟩ := hc.gamma
  obtain ⟨rj, hj1, hj2⟩ := hc.jitter
  have hon := hg.inv.on
  obtain ⟨l, hl1, hl2⟩ := C26_product mod G.rv g.st hg.inv.built hon M hc.model γ jit (by simp only [readPar, hon.gamma, hg1, hg2]) (by simp only [readPar, hon.jit, hj1, hj2])
    hna hg.inv.nodec he
  refine ⟨l, ?_, hl1⟩
  rw [C88_logprob mod hmod G g Ls hg hd h γ jit M hc hr, if_pos (dataCov_posDef _ _ _ _ he (fun hq => absurd hq hk))]
  congr 2
  have hpos : ∀ i : Fin G.rv.obs.length, 0 < G.rv.obs[i].err ^ 2 + jit ^ 2 := by
    intro i
    have hne := he _ (List.getElem_mem (n := i) i.2)
    rcases hne with hne | hne
    · have : 0 < G.rv.obs[i].err ^ 2 := by have : G.rv.obs[i].err ≠ 0 := hne; positivity
      positivity
    · positivity
  have hdiag : dataCov g.kernel.kind h G.rv.obs jit = Matrix.diagonal (fun i : Fin G.rv.obs.length => G.rv.obs[i].err ^ 2 + jit ^ 2) := by
    ext i j
    have hz : gpCov g.kernel.kind h G.rv.obs[i].t G.rv.obs[j].t = 0 := by
      have a := gpCov_nonneg g.kernel.kind h G.rv.obs[i].t G.rv.obs[j].t
      have b := gpCov_le g.kernel.kind h G.rv.obs[i].t G.rv.obs[j].t
      rw [h0] at b
      nlinarith
    unfold dataCov
    rw [hz, zero_add, Matrix.diagonal_apply]
  rw [hdiag, mvnDensity_diagonal _ _ hpos]
  have hw : whiteDensity G.rv.obs M jit γ = ∏ i : Fin G.rv.obs.length, gaussianPDFReal 0 (G.rv.obs[i].err ^ 2 + jit ^ 2).toNNReal (G.rv.obs[i].y - γ - M G.rv.obs[i].t) := by
    unfold whiteDensity
    rw [← Fin.prod_univ_fun_getElem]
    apply Finset.prod_congr rfl; intro i _
    rw [gaussian_shift]
    congr 1
    show G.rv.obs[i].y - (M G.rv.obs[i].t + γ) = _
    ring
  rw [← hw, ← hl2, log_exp]

/-- Hyperparameters with amplitude zero. -/
noncomputable def zeroAmp (slot : String) : ℝ := if slot = "gp_amp" then 0 else 1

theorem zeroAmp_regular {kind : KernelKind} (hk : kind ≠ .quasiPer) : Regular kind zeroAmp := by
  cases kind with
  | sqExp => simp [Regular, zeroAmp]
  | per => simp [Regular, zeroAmp]
  | quasiPer => exact absurd rfl hk

theorem gpPut_notAnalytic {G : GPLike} {g : GPState} (h : String → ℝ) (γ jit : ℝ) : ¬ AnalyticGamma (g.put h γ jit).st G.rv.gammaIdx := by
  rintro ⟨s, r, _, hr, hl, _⟩
  have : r ∈ (g.st.names.map (gpRow h γ jit)) := List.mem_of_getElem? hr
  obtain ⟨k, _, rfl⟩ := List.mem_map.1 this
  unfold gpRow at hl
  split at hl <;> cases hl

/-- Non-vacuity of `C38_white_partial`. -/
example (drive : Drive) (tb : ℝ) (kind : KernelKind) (hk : kind ≠ .quasiPer) : ∃ G g, GPReach (fun s t => modelCall drive tb s none t) G g [G.rv] ∧ g.AtData G ∧
    GPContext (fun s t => modelCall drive tb s none t) G g zeroAmp 1 0 (fun _ => 0) ∧ Regular g.kernel.kind zeroAmp ∧ g.kernel.kind ≠ .quasiPer ∧ zeroAmp "gp_amp" = 0 ∧
    ¬ AnalyticGamma g.st G.rv.gammaIdx ∧ ∀ o ∈ G.rv.obs, o.err ≠ 0 ∨ (0 : ℝ) ≠ 0 := by
  obtain ⟨G, g, h1, h2, h3, h4, h5, h6, h7, h8⟩ := gpWitness drive tb kind gpObs
  refine ⟨G, _, h1.put (h6 zeroAmp 1 0), h2, h8 _ _ _, ?_, ?_, by simp [zeroAmp], gpPut_notAnalytic _ _ _, ?_⟩
  · show Regular g.kernel.kind _; rw [h4]; exact zeroAmp_regular hk
  · show g.kernel.kind ≠ _; rw [h4]; exact hk
  · rw [h5]; intro o ho
    simp only [gpObs, List.mem_cons, List.not_mem_nil, or_false] at ho
    rcases ho with rfl | rfl <;> norm_num

/-- C38 in full is false: with the quasi-periodic kernel and amplitude zero the first evaluation gives `-inf`, the white-noise likelihood a finite number. -/
theorem C38_quasi_violated (drive : Drive) (tb : ℝ) : ∃ G g, GPReach (fun s t => modelCall drive tb s none t) G g [G.rv] ∧ g.AtData G ∧ g.kernel.kind = .quasiPer ∧
    GPContext (fun s t => modelCall drive tb s none t) G g zeroAmp 0 0 (fun _ => 0) ∧ (G.logprob (fun s t => modelCall drive tb s none t) g).2 = .ok .neg ∧
    ∃ l, G.rv.logprob (fun s t => modelCall drive tb s none t) g.st = .ok (g.st, .fin l) := by
  obtain ⟨G, g, h1, h2, h3, h4, h5, h6, h7, h8⟩ := gpWitness drive tb .quasiPer gpObs
  have hreach := h1.put (h6 zeroAmp 0 0)
  have hc := h8 zeroAmp 0 0
  refine ⟨G, _, hreach, h2, h4, hc, ?_, ?_⟩
  · have := logprob_disabled (modelCall_dictFree drive tb) hreach.inv h2 hc h4 (by simp [zeroAmp]) (by simp [zeroAmp]) (by simp [zeroAmp]) (by simp [zeroAmp])
    have hn : (g.put zeroAmp 0 0).kernel.cov = none := h3
    rw [hn] at this
    exact this
  · obtain ⟨rg, hg1, hg2⟩ := hc.gamma
    obtain ⟨rj, hj1, hj2⟩ := hc.jitter
    have hon := hreach.inv.on
    obtain ⟨l, hl, _⟩ := C26_product (fun s t => modelCall drive tb s none t) G.rv _ hreach.inv.built hon (fun _ => 0) hc.model 0 0 (by simp only [readPar, hon.gamma, hg1, hg2]) (by simp only [readPar, hon.jit, hj1, hj2])
      (gpPut_notAnalytic _ _ _) hreach.inv.nodec (by
        rw [h5]; intro o ho
        simp only [gpObs, List.mem_cons, List.not_mem_nil, or_false] at ho
        rcases ho with rfl | rfl <;> norm_num)
    exact ⟨l, hl⟩

/-! ## C39 -/

/-- C39: at the data times the prediction is the residual minus its noise part `D C⁻¹ r`, where `D` is the diagonal matrix of the squared uncertainties and `C` the
covariance matrix of the data. -/
theorem C39_at_data (mod : Curve) (hmod : mod.DictFree) (G : GPLike) (g : GPState) (Ls : List RVLike) (hg : GPReach mod G g Ls) (h : String → ℝ)
    (γ jit : ℝ) (M : ℝ → ℝ) (hc : GPContext mod G g h γ jit M) (hr : Regular g.kernel.kind h) (hpd : (dataCov g.kernel.kind h G.rv.obs jit).PosDef) :
    ∃ g' mu sd, G.predict mod G.x g = (g', .ok (mu, sd)) ∧ mu.length = G.rv.obs.length ∧ ∀ i : Fin G.rv.obs.length,
      mu[(i : Nat)]? = some (G.rv.obs[i].y - γ - M G.rv.obs[i].t - (G.rv.obs[i].err ^ 2 + jit ^ 2) *
        ((dataCov g.kernel.kind h G.rv.obs jit)⁻¹ *ᵥ (fun j => G.rv.obs[j].y - γ - M G.rv.obs[j].t)) i) := by
  obtain ⟨g', mu, sd, h1, h2, h3, h4⟩ := predict_regular hmod hg.inv hc hr hpd G.x
  have hlen : G.x.length = G.rv.obs.length := by simp [GPLike.x]
  refine ⟨g', mu, sd, h1, by rw [h2, hlen], ?_⟩
  intro i
  obtain ⟨h5, _⟩ := h4 i (by rw [hlen]; exact i.2)
  rw [h5]
  congr 1
  set C := dataCov g.kernel.kind h G.rv.obs jit with hC
  set r : Fin G.rv.obs.length → ℝ := fun j => G.rv.obs[j].y - γ - M G.rv.obs[j].t with hrdef
  have hx : ∀ hh : (i : Nat) < G.x.length, G.x[(i : Nat)]'hh = G.rv.obs[i].t := by intro hh; simp [GPLike.x]
  have hinv : C *ᵥ (C⁻¹ *ᵥ r) = r := by
    rw [Matrix.mulVec_mulVec, Matrix.mul_nonsing_inv _ (isUnit_iff_ne_zero.2 hpd.det_pos.ne'), Matrix.one_mulVec]
  have hi := congrFun hinv i
  have hsplit : (C *ᵥ (C⁻¹ *ᵥ r)) i = (fun j : Fin G.rv.obs.length => gpCov g.kernel.kind h G.rv.obs[i].t G.rv.obs[j].t) ⬝ᵥ (C⁻¹ *ᵥ r) +
      (G.rv.obs[i].err ^ 2 + jit ^ 2) * (C⁻¹ *ᵥ r) i := by
    have hrow : C i = fun j : Fin G.rv.obs.length => gpCov g.kernel.kind h G.rv.obs[i].t G.rv.obs[j].t + if i = j then G.rv.obs[i].err ^ 2 + jit ^ 2 else 0 := rfl
    show C i ⬝ᵥ _ = _
    rw [hrow]
    simp only [dotProduct, add_mul, Finset.sum_add_distrib, ite_mul, zero_mul, Finset.sum_ite_eq, Finset.mem_univ, if_true]
  rw [hsplit] at hi
  rw [hx]
  show _ = r i - _
  linarith

/-- C39: the residuals that `residuals()` returns (velocity minus gamma, model and GP) are the noise part `D C⁻¹ r`. -/
theorem C39_residuals (mod : Curve) (hmod : mod.DictFree) (G : GPLike) (g : GPState) (Ls : List RVLike) (hg : GPReach mod G g Ls) (h : String → ℝ)
    (γ jit : ℝ) (M : ℝ → ℝ) (hc : GPContext mod G g h γ jit M) (hr : Regular g.kernel.kind h) (hpd : (dataCov g.kernel.kind h G.rv.obs jit).PosDef) :
    ∃ res, (G.residuals mod g).2 = .ok res ∧ res.length = G.rv.obs.length ∧ ∀ i : Fin G.rv.obs.length,
      res[(i : Nat)]? = some (some ((G.rv.obs[i].err ^ 2 + jit ^ 2) *
        ((dataCov g.kernel.kind h G.rv.obs jit)⁻¹ *ᵥ (fun j => G.rv.obs[j].y - γ - M G.rv.obs[j].t)) i)) := by
  obtain ⟨g', mu, sd, h1, h2, h3⟩ := C39_at_data mod hmod G g Ls hg h γ jit M hc hr hpd
  have f := update_frame G g
  obtain ⟨k, hk1, hk2⟩ := predict_state mod G G.x g
  rw [h1] at hk1
  simp only at hk1
  unfold GPLike.residuals
  rw [h1]
  simp only
  have hres : G.resids mod g'.st = .ok (G.rv.obs.map (fun o => some (o.y - γ - M o.t))) := by
    rw [hk1]
    exact resids_eq (by rw [f.rows]; exact hc.gamma) (hc.model' hmod)
  rw [hres]
  refine ⟨_, rfl, by simp [h2], ?_⟩
  intro i
  rw [List.getElem?_zipWith, h3 i]
  simp only [List.getElem?_map, List.getElem?_eq_getElem i.2, Option.map_some]
  congr 2
  show G.rv.obs[(i : Nat)].y - γ - M G.rv.obs[(i : Nat)].t - (G.rv.obs[(i : Nat)].y - γ - M G.rv.obs[(i : Nat)].t - _) = _
  ring

/-- C39: predictive standard deviations are real numbers whose squares lie between 0 and the prior variance amplitude², at all prediction times; for the quasi-periodic
kernel if no exponent reaches the cut-off. -/
theorem C39_variance (mod : Curve) (hmod : mod.DictFree) (G : GPLike) (g : GPState) (Ls : List RVLike) (hg : GPReach mod G g Ls) (h : String → ℝ)
    (γ jit : ℝ) (M : ℝ → ℝ) (hc : GPContext mod G g h γ jit M) (hr : Regular g.kernel.kind h) (he : ∀ o ∈ G.rv.obs, o.err ≠ 0 ∨ jit ≠ 0) (xp : List ℝ)
    (hu : g.kernel.kind = .quasiPer → Unclipped h (xp ++ G.x)) :
    ∃ g' mu sd, G.predict mod xp g = (g', .ok (mu, sd)) ∧ mu.length = xp.length ∧ sd.length = xp.length ∧
      ∀ i : Nat, i < xp.length → ∃ s, sd[i]? = some (some s) ∧ 0 ≤ s ∧ s ^ 2 ≤ h "gp_amp" ^ 2 := by
  have hu' : g.kernel.kind = .quasiPer → Unclipped h (G.rv.obs.map Obs.t) := fun hk a ha b hb =>
    hu hk a (List.mem_append_right _ ha) b (List.mem_append_right _ hb)
  have hpd := dataCov_posDef g.kernel.kind h G.rv.obs jit he hu'
  obtain ⟨g', mu, sd, h1, h2, h3, h4⟩ := predict_regular hmod hg.inv hc hr hpd xp
  refine ⟨g', mu, sd, h1, h2, h3, ?_⟩
  intro i hi
  obtain ⟨_, h5⟩ := h4 i hi
  set C := dataCov g.kernel.kind h G.rv.obs jit with hC
  set k : Fin G.rv.obs.length → ℝ := fun j => gpCov g.kernel.kind h xp[i] G.rv.obs[j].t with hk
  have hlow : 0 ≤ gpCov g.kernel.kind h xp[i] xp[i] - k ⬝ᵥ (C⁻¹ *ᵥ k) := by
    apply schur_nonneg C hpd
    let pts : Fin G.rv.obs.length ⊕ Unit → ℝ := Sum.elim (fun j => G.rv.obs[j].t) (fun _ => xp[i])
    have hp1 := gpCov_psd g.kernel.kind h (xp ++ G.x) hu pts (by
      rintro (j | j)
      · exact List.mem_append_right _ (List.mem_map.2 ⟨_, List.getElem_mem _, rfl⟩)
      · exact List.mem_append_left _ (List.getElem_mem _))
    have hp2 : (Matrix.diagonal (Sum.elim (fun j : Fin G.rv.obs.length => G.rv.obs[j].err ^ 2 + jit ^ 2) (fun _ : Unit => (0 : ℝ)))).PosSemidef := by
      apply PosSemidef.diagonal
      rintro (j | j)
      · show (0 : ℝ) ≤ G.rv.obs[j].err ^ 2 + jit ^ 2; positivity
      · exact le_refl _
    have := PosSemidef.add (A := Matrix.of fun i j => gpCov g.kernel.kind h (pts i) (pts j)) hp1 hp2
    convert this using 1
    ext a b
    rcases a with a | a <;> rcases b with b | b
    · simp only [Matrix.fromBlocks_apply₁₁, Matrix.add_apply, Matrix.of_apply, Matrix.diagonal_apply, Sum.inl.injEq]
      rfl
    · simp only [Matrix.fromBlocks_apply₁₂, Matrix.add_apply, Matrix.of_apply, Matrix.diagonal_apply]
      rw [if_neg (by simp), add_zero]
      exact gpCov_symm _ _ _ _
    · simp only [Matrix.fromBlocks_apply₂₁, Matrix.add_apply, Matrix.of_apply, Matrix.diagonal_apply, Matrix.conjTranspose_apply, star_trivial]
      rw [if_neg (by simp), add_zero]
      rfl
    · simp [pts]
  have hup : 0 ≤ k ⬝ᵥ (C⁻¹ *ᵥ k) := by
    have := hpd.inv.posSemidef
    have := (posSemidef_iff_dotProduct_mulVec.1 this).2 k
    simpa using this
  refine ⟨√(gpCov g.kernel.kind h xp[i] xp[i] - k ⬝ᵥ (C⁻¹ *ᵥ k)), ?_, sqrt_nonneg _, ?_⟩
  · rw [h5]; unfold npSqrt; rw [if_neg (not_lt.2 hlow)]
  · rw [sq_sqrt hlow, gpCov_self]; linarith

/-- Non-vacuity of C39: two observations, predictions at three times. -/
example (drive : Drive) (tb : ℝ) (kind : KernelKind) : ∃ G g, GPReach (fun s t => modelCall drive tb s none t) G g [G.rv] ∧ g.kernel.kind = kind ∧
    GPContext (fun s t => modelCall drive tb s none t) G g exampleHyper 1 0 (fun _ => 0) ∧ Regular g.kernel.kind exampleHyper ∧
    (∀ o ∈ G.rv.obs, o.err ≠ 0 ∨ (0 : ℝ) ≠ 0) ∧ Unclipped exampleHyper ([0, 1, 3] ++ G.x) ∧ (dataCov g.kernel.kind exampleHyper G.rv.obs 0).PosDef := by
  obtain ⟨G, g, h1, h2, h3, h4, h5, h6, h7, h8⟩ := gpWitness drive tb kind gpObs
  have he : ∀ o ∈ G.rv.obs, o.err ≠ 0 ∨ (0 : ℝ) ≠ 0 := by
    rw [h5]; intro o ho
    simp only [gpObs, List.mem_cons, List.not_mem_nil, or_false] at ho
    rcases ho with rfl | rfl <;> norm_num
  refine ⟨G, _, h1.put (h6 exampleHyper 1 0), h4, h8 _ _ _, exampleHyper_regular _, he, ?_, ?_⟩
  · intro a ha b hb
    have h7 : exampleHyper "gp_explength" = 7 := by simp [exampleHyper]
    have h1 : exampleHyper "gp_perlength" = 1 := by simp [exampleHyper]
    rw [h7, h1]
    constructor
    · simp only [GPLike.x, h5, gpObs, List.map_cons, List.map_nil, List.mem_cons, List.not_mem_nil, or_false, List.mem_append] at ha hb
      rcases ha with (rfl | rfl | rfl) | rfl | rfl <;> rcases hb with (rfl | rfl | rfl) | rfl | rfl <;> norm_num
    · have := sin_sq_le_one (π * |a - b| / exampleHyper "gp_per")
      linarith
  · exact dataCov_posDef _ _ _ _ he (fun _ => by rw [h5]; exact exampleHyper_unclipped)

end Radvel
