import Verif.Lemmas.GPFail
import Verif.Props.GP

/-!
# C86, C87, C89: what evaluations of a GP likelihood read and leave behind
-/

namespace Radvel
open Real Matrix

/-! ## C86 -/

/-- C86 for likelihoods that can be evaluated (missing: accepted names that cannot, `C86_name_violated`; good names that are not accepted, `C86_suffix_violated`): in every
reachable state `update_kernel_params` succeeds exactly if every hyperparameter is called `gp_NAME` or `gp_NAME_SUFFIX`, and then every slot of the kernel holds the
value in column 0 of the row of its own parameter. -/
theorem C86_update_partial (mod : Curve) (G : GPLike) (g : GPState) (Ls : List RVLike) (hg : GPReach mod G g Ls) :
    ((G.update g).2 = .ok () ↔ WellNamed g.kernel.kind G.hnames) ∧
    ((G.update g).2 = .ok () → ∀ slot ∈ g.kernel.kind.slots, ∀ k ∈ G.hnames, Named slot k.render → ∀ i r, g.st.indices.get? k = some i → g.st.rows[i]? = some r →
      (G.update g).1.kernel.hp.get? slot = some r.value) := by
  refine ⟨⟨?_, ?_⟩, ?_⟩
  · intro hok k hk
    obtain ⟨i, r, hi, _⟩ := hg.inv.row hk
    exact updateLoop_named _ hg.inv hok k (Dict.mem_keys_of_get? _ hi) hk
  · intro hw; exact updateLoop_ok _ hg.inv hw
  · intro hok slot hs k hk hn i r hi hr
    exact updateLoop_value _ hg.inv hok hs hk hn hi hr (.inl (Dict.mem_keys_of_get? _ hi))

/-- Non-vacuity of `C86_update_partial`. -/
example (drive : Drive) (tb : ℝ) (kind : KernelKind) : ∃ G g, GPReach (fun s t => modelCall drive tb s none t) G g [G.rv] ∧ WellNamed g.kernel.kind G.hnames ∧
    g.kernel.kind = kind := by
  obtain ⟨G, g, h1, h2, h3, h4, h5, h6, h7, h8⟩ := gpWitness drive tb kind gpObs
  exact ⟨G, _, h1.put (h6 exampleHyper 1 0), (h1.put (h6 exampleHyper 1 0)).inv.wellNamed (h8 exampleHyper 1 0).hyper, h4⟩

/-- C86 in full is false: a squared-exponential kernel accepts the parameter names `gp_length1` and `gp_amp` at construction, but every later call of `logprob`, `predict`
and `residuals` raises a `KeyError`. -/
theorem C86_name_violated (mod : Curve) : ∃ G g, GPReach mod G g [G.rv] ∧ g.kernel.kind = .sqExp ∧ G.hnames = [.inst .gp "_length1", .inst .gp "_amp"] ∧
    (G.logprob mod g).2 = .error .keyError ∧ (∀ xp, (G.predict mod xp g).2 = .error .keyError) ∧ (G.residuals mod g).2 = .error .keyError := by
  obtain ⟨G, g, h1, h2, h3, h4, h5, h6, h7, h8, h9⟩ := flatGP' mod .sqExp [.inst .gp "_length1", .inst .gp "_amp"]
    (by intro k hk; simp only [List.mem_cons, List.not_mem_nil, or_false] at hk; rcases hk with rfl | rfl <;> exact ⟨_, _, rfl⟩) (by decide) (by decide) (by decide)
    gpObs (fun _ => { value := 1, vary := true, scale := 0, linear := false })
  have hnot : ¬ WellNamed g.kernel.kind G.hnames := by
    intro hw
    obtain ⟨slot, hs, hn⟩ := hw (.inst .gp "_length1") (by rw [h7]; simp)
    have e1 := hparamsKey_slot _ hs hn
    have e2 : hparamsKey (Key.inst .gp "_length1").render = .ok "gp_length1".toList := by decide
    rw [e2] at e1
    cases e1
    rw [h4] at hs
    exact absurd hs (by decide)
  have herr : (G.update g).2 = .error .keyError := by
    have key : ∀ (l : List Key) (g : GPState), GPInv G g [G.rv] → g.kernel.kind = .sqExp → (runLoop G.updateKey g l).2 ≠ .ok () → (runLoop G.updateKey g l).2 = .error .keyError := by
      intro l
      induction l with
      | nil => intro g _ _ h; exact absurd rfl h
      | cons a t ih =>
        intro g hI hk hne
        unfold runLoop at hne ⊢
        cases hu : G.updateKey g a with
        | ok g' =>
          rw [hu] at hne
          simp only at hne ⊢
          exact ih g' (hI.updateKey hu) ((updateKey_frame hu).kind.trans hk) hne
        | error e =>
          simp only
          by_cases ha : a ∈ G.hnames
          · have ha' := ha
            rw [h7] at ha'
            simp only [List.mem_cons, List.not_mem_nil, or_false] at ha'
            rcases ha' with rfl | rfl
            · unfold GPLike.updateKey at hu
              rw [if_neg (not_not.2 ha)] at hu
              have e2 : hparamsKey (Key.inst .gp "_length1").render = .ok "gp_length1".toList := by decide
              rw [e2] at hu
              simp only at hu
              have : ¬ g.kernel.hp.has "gp_length1".toList = true := by
                intro hh
                have := (hI.slots _).1 hh
                rw [hk] at this
                exact absurd this (by decide)
              rw [if_neg this] at hu
              cases hu; rfl
            · exfalso
              unfold GPLike.updateKey at hu
              rw [if_neg (not_not.2 ha)] at hu
              have e2 : hparamsKey (Key.inst .gp "_amp").render = .ok "gp_amp".toList := by decide
              rw [e2] at hu
              obtain ⟨i, r, hi, hr⟩ := hI.row ha
              have hs := (hI.slots "gp_amp".toList).2 (by rw [hk]; decide)
              simp only [hs, if_true, hi, hr] at hu
              cases hu
          · unfold GPLike.updateKey at hu
            rw [if_pos ha] at hu
            cases hu
    exact key _ g h1.inv h4 (fun hok => hnot ((C86_update_partial mod G g [G.rv] h1).1.1 hok))
  have hlp : (G.logprob mod g).2 = .error .keyError := by
    unfold GPLike.logprob
    rcases hu : G.update g with ⟨g1, res⟩
    rw [hu] at herr
    simp only at herr
    subst herr
    rfl
  have hpr : ∀ xp, (G.predict mod xp g).2 = .error .keyError := by
    intro xp
    unfold GPLike.predict
    rcases hu : G.update g with ⟨g1, res⟩
    rw [hu] at herr
    simp only at herr
    subst herr
    rfl
  refine ⟨G, g, h1, h4, h7, hlp, hpr, ?_⟩
  unfold GPLike.residuals
  have := hpr G.x
  rcases hq : G.predict mod G.x g with ⟨g1, res⟩
  rw [hq] at this
  simp only at this
  subst this
  rfl

/-- C86 in full is false: with a suffix that contains `length`, such as `_mylength`, the quasi-periodic kernel does not recognise its period and the constructor raises a
`KeyError`, although every name has the form `gp_NAME` or `gp_NAME_SUFFIX`. -/
theorem C86_suffix_violated (v : Key → ℝ) :
    let names : List Key := [.inst .gp "_perlength", .inst .gp "_amp", .inst .gp "_per_mylength", .inst .gp "_explength"]
    WellNamed .quasiPer names ∧ Kernel.new .quasiPer (names.map (fun k => (k, v k))) = .error .keyError := by
  intro names
  constructor
  · intro k hk
    simp only [names, List.mem_cons, List.not_mem_nil, or_false] at hk
    rcases hk with rfl | rfl | rfl | rfl
    · exact ⟨"gp_perlength".toList, by decide, .inl (by decide)⟩
    · exact ⟨"gp_amp".toList, by decide, .inl (by decide)⟩
    · exact ⟨"gp_per".toList, by decide, .inr ⟨"mylength".toList, by decide⟩⟩
    · exact ⟨"gp_explength".toList, by decide, .inl (by decide)⟩
  · have hkeys : Dict.keys (names.map (fun k => (k, v k))) = names := by simp [names, Dict.keys]
    unfold Kernel.new
    simp only
    rw [if_neg (by simp [names, KernelKind.slots]), if_neg]
    intro hall
    rw [List.all_eq_true] at hall
    have := hall "gp_per".toList (by decide)
    rw [newFold_has] at this
    rcases this with h | ⟨_, k, hk, ht⟩
    · exact absurd h (by simp [Dict.has, Dict.get?])
    · rw [hkeys] at hk
      have : ∀ k ∈ names, ¬ KernelKind.quasiPer.takes "gp_per".toList k.render = true := by decide
      exact this k hk ht

/-! ## C87 -/

/-- C87 for calls that succeed (missing: those that raise, where it is false, `C87_singular_violated`): `logprob` never changes the distances the kernel has stored, and
`predict` and `residuals`, if they return, leave the distances of the data, whatever they were before. -/
theorem C87_distances_partial (mod : Curve) (G : GPLike) (g : GPState) :
    ((G.logprob mod g).1.kernel.x1 = g.kernel.x1 ∧ (G.logprob mod g).1.kernel.x2 = g.kernel.x2) ∧
    (∀ xp g' p, G.predict mod xp g = (g', .ok p) → g'.kernel.x1 = G.x ∧ g'.kernel.x2 = G.x) ∧
    (∀ g' r, G.residuals mod g = (g', .ok r) → g'.kernel.x1 = G.x ∧ g'.kernel.x2 = G.x) := by
  refine ⟨?_, ?_, ?_⟩
  · obtain ⟨k, h1, h2, h3, h4⟩ := logprob_state mod G g
    rw [h1]; exact ⟨h3, h4⟩
  · intro xp g' p hp; exact predict_atData mod G xp g g' p hp
  · intro g' r hr
    unfold GPLike.residuals at hr
    rcases hq : G.predict mod G.x g with ⟨g2, res⟩
    rw [hq] at hr
    cases res with
    | error e => cases hr
    | ok p =>
      have ha := predict_atData mod G G.x g g2 p hq
      simp only at hr
      cases hres : G.resids mod g2.st with
      | error e => rw [hres] at hr; cases hr
      | ok rs =>
        rw [hres] at hr
        simp only [Prod.mk.injEq] at hr
        rw [← hr.1]; exact ha

/-- Non-vacuity of `C87_distances_partial`: `predict` and `residuals` do return. -/
example (drive : Drive) (tb : ℝ) (kind : KernelKind) : ∃ G g, GPReach (fun s t => modelCall drive tb s none t) G g [G.rv] ∧ g.kernel.kind = kind ∧
    (∃ g' p, G.predict (fun s t => modelCall drive tb s none t) [0, 1, 3] g = (g', .ok p)) ∧ ∃ r, (G.residuals (fun s t => modelCall drive tb s none t) g).2 = .ok r := by
  obtain ⟨G, g, h1, h2, h3, h4, h5, h6, h7, h8⟩ := gpWitness drive tb kind gpObs
  have hpd : (dataCov g.kernel.kind exampleHyper G.rv.obs 3).PosDef :=
    dataCov_posDef _ _ _ _ (fun o _ => .inr (by norm_num)) (fun _ => by rw [h5]; exact exampleHyper_unclipped)
  have hreach := h1.put (h6 exampleHyper 1 3)
  obtain ⟨g', mu, sd, hp, _⟩ := predict_regular (modelCall_dictFree drive tb) hreach.inv (h8 exampleHyper 1 3) (exampleHyper_regular _) hpd [0, 1, 3]
  obtain ⟨r, hr, _⟩ := C39_residuals _ (modelCall_dictFree drive tb) G _ _ hreach exampleHyper 1 3 _ (h8 exampleHyper 1 3) (exampleHyper_regular _) hpd
  exact ⟨G, _, hreach, h4, ⟨g', _, hp⟩, r, hr⟩

/-- One observation with error bar zero. -/
noncomputable def sharpObs : List Obs := [{ t := 0, y := 0, err := 0 }]

/-- C87 in full is false: a `predict` that raises (here because the covariance matrix is singular) leaves the kernel with the distances between prediction and data times;
after the vector has been set to good values `logprob` returns a finite number that is not the log density of the data. -/
theorem C87_singular_violated (drive : Drive) (tb : ℝ) : ∃ G g h jit rows, GPReach (fun s t => modelCall drive tb s none t) G g [G.rv] ∧ g.AtData G ∧
    (G.predict (fun s t => modelCall drive tb s none t) [5] g).2 = .error .linAlgError ∧
    let g1 := (G.predict (fun s t => modelCall drive tb s none t) [5] g).1
    let g2 : GPState := { g1 with st := { g1.st with rows := rows } }
    rows.length = g1.st.rows.length ∧ GPContext (fun s t => modelCall drive tb s none t) G g2 h 0 jit (fun _ => 0) ∧ Regular g2.kernel.kind h ∧
    ∃ l, (G.logprob (fun s t => modelCall drive tb s none t) g2).2 = .ok (.fin l) ∧
      l ≠ log (mvnDensity (dataCov g2.kernel.kind h G.rv.obs jit) (fun i => G.rv.obs[i].y)) := by
  obtain ⟨G, g, h1, h2, h3, h4, h5, h6, h7, h8⟩ := gpWitness drive tb .sqExp sharpObs
  set mod : Curve := fun s t => modelCall drive tb s none t with hmod
  have hreach := h1.put (h6 zeroAmp 0 0)
  have hc := h8 zeroAmp 0 0
  have hreg : Regular (g.put zeroAmp 0 0).kernel.kind zeroAmp := by show Regular g.kernel.kind _; rw [h4]; exact zeroAmp_regular (by decide)
  have hnpd : ¬ (dataCov g.kernel.kind zeroAmp G.rv.obs 0).PosDef := by
    intro hp
    have hpos : 0 < G.rv.obs.length := by rw [h5]; simp [sharpObs]
    have := hp.diag_pos (i := ⟨0, hpos⟩)
    unfold dataCov at this
    have he : G.rv.obs[(⟨0, hpos⟩ : Fin G.rv.obs.length)].err = 0 := by simp [h5, sharpObs]
    rw [gpCov_self, he] at this
    simp [zeroAmp] at this
  obtain ⟨p1, p2, p3⟩ := predict_singular (modelCall_dictFree drive tb) hreach.inv hc hreg hnpd [5]
  set g1 := (G.predict mod [5] (g.put zeroAmp 0 0)).1 with hg1
  obtain ⟨k, hk1, hk2⟩ := predict_state mod G [5] (g.put zeroAmp 0 0)
  have f := update_frame G (g.put zeroAmp 0 0)
  have fi : g1.st.indices = g.st.indices := by rw [hg1, hk1]; exact f.indices
  have fk : g1.kernel.kind = g.kernel.kind := by rw [hg1, hk1]; exact hk2.kind.trans f.kind
  let h : String → ℝ := fun _ => 1
  have hlen : (g.st.names.map (gpRow h 0 1)).length = g1.st.rows.length := by
    have : g1.st.rows = (g.put zeroAmp 0 0).st.rows := by rw [hg1, hk1]; exact f.rows
    rw [this]; show _ = (g.st.names.map _).length; simp
  have hc1 := h8 h 0 1
  have hc' : GPContext mod G { g1 with st := { g1.st with rows := g.st.names.map (gpRow h 0 1) } } h 0 1 (fun _ => 0) := by
    refine ⟨?_, hc1.gamma, hc1.jitter, ?_⟩
    · intro slot hs
      have hs' : slot.toList ∈ g1.kernel.kind.slots := hs
      rw [fk] at hs'
      obtain ⟨k, hk, hn, i, r, hi, hr⟩ := hc1.hyper slot hs'
      exact ⟨k, hk, hn, i, r, by rw [← hi]; exact congrArg (fun d => Dict.get? d k) fi, hr⟩
    · intro o ho
      rw [← hc1.model o ho]
      refine modelCall_dictFree drive tb { g.st with rows := g.st.names.map (gpRow h 0 1) } { g1.st with rows := g.st.names.map (gpRow h 0 1) } rfl fi ?_ ?_ _
      · show g1.st.params.basis = _; rw [hg1, hk1]; exact f.basis
      · show g1.st.params.numPlanets = _; rw [hg1, hk1]; exact f.planets
  have hreg' : Regular g1.kernel.kind h := by rw [fk, h4]; simp [Regular, h]
  have hr2 : GPReach mod G { g1 with st := { g1.st with rows := g.st.names.map (gpRow h 0 1) } } [G.rv] := .write _ _ (.predict _ _ hreach [5]) _ hlen
  refine ⟨G, _, h, 1, g.st.names.map (gpRow h 0 1), hreach, h2, p1, hlen, hc', hreg', ?_⟩
  have hraw := (logprob_raw (modelCall_dictFree drive tb) hr2.inv hc' hreg').1
  have e1 : ({ g1 with st := { g1.st with rows := g.st.names.map (gpRow h 0 1) } } : GPState).kernel.x1 = [5] := p2
  have e2 : ({ g1 with st := { g1.st with rows := g.st.names.map (gpRow h 0 1) } } : GPState).kernel.x2 = G.x := p3
  have e3 : ({ g1 with st := { g1.st with rows := g.st.names.map (gpRow h 0 1) } } : GPState).kernel.kind = .sqExp := fk.trans h4
  have ex : G.x = [0] := by simp [GPLike.x, h5, sharpObs]
  have e4 : gpCov .sqExp h 5 0 = exp (-25) := by simp [gpCov, h]; norm_num
  have e5 : gpCov .sqExp h 0 0 = 1 := by rw [gpCov_self]; simp [h]
  have ev : ∀ o : Obs, o.err = 0 → o.var 1 = 1 := by intro o ho; simp [Obs.var, ho]
  have hval : ∀ c : ℝ, 0 < c → log (mvnDensity (Matrix.of fun _ _ : Fin 1 => c) (fun _ => 0)) = -log (2 * π * c) / 2 := by
    intro c hc
    unfold mvnDensity
    have h1 : (0 : ℝ) < 2 * π * c := by positivity
    have h2 : (fun _ : Fin 1 => (0 : ℝ)) ⬝ᵥ ((Matrix.of fun _ _ : Fin 1 => c)⁻¹ *ᵥ (fun _ => 0)) = 0 := by simp [dotProduct]
    rw [h2]
    simp only [neg_zero, zero_div, exp_zero, pow_one, Matrix.det_unique, Matrix.of_apply]
    rw [log_div one_ne_zero (by positivity), log_one, log_sqrt h1.le]
    ring
  have hpd1 : ∀ c : ℝ, 0 < c → (Matrix.of fun _ _ : Fin 1 => c).PosDef := by
    intro c hc
    have : (Matrix.of fun _ _ : Fin 1 => c) = Matrix.diagonal (fun _ => c) := by
      ext i j; rw [Subsingleton.elim i j]; simp
    rw [this]
    exact PosDef.diagonal (fun _ => hc)
  refine ⟨-log (2 * π * (exp (-25) + 1)) / 2, ?_, ?_⟩
  · refine hraw.trans ?_
    rw [e1, e2, e3, ex, h5]
    have hr : (sharpObs.map (fun o => some (o.y - 0 - 0))) = [some 0] := by simp [sharpObs]
    have he : sharpObs.map (fun o => √(o.var 1)) = [1] := by simp [sharpObs, ev]
    show Except.ok (gpValue sharpObs.length (sharpObs.map (fun o => some (o.y - 0 - 0))) _) = _
    rw [hr, he]
    congr 1
    have := gpValue_spec (n := 1) (addErrors (Mat.table (fun a b => some (gpCov .sqExp h a b)) [5] [0]) (some [1])) rfl rfl (Matrix.of fun _ _ : Fin 1 => exp (-25) + 1)
      (by
        intro i j
        rw [Subsingleton.elim i 0, Subsingleton.elim j 0]
        simp [addErrors, Mat.table, Mat.addDiag, e4])
      (fun _ _ => rfl) [some 0] rfl (fun _ => 0) (by intro i; rw [Subsingleton.elim i 0]; rfl)
    rw [if_pos (hpd1 _ (by positivity)), hval _ (by positivity)] at this
    exact this
  · have hd : mvnDensity (dataCov .sqExp h G.rv.obs 1) (fun i => G.rv.obs[i].y) = mvnDensity (Matrix.of fun _ _ : Fin 1 => (2 : ℝ)) (fun _ => 0) := by
      suffices key : ∀ obs : List Obs, obs = sharpObs →
          mvnDensity (dataCov .sqExp h obs 1) (fun i => obs[i].y) = mvnDensity (Matrix.of fun _ _ : Fin 1 => (2 : ℝ)) (fun _ => 0) from key _ h5
      rintro obs rfl
      have c1 : dataCov .sqExp h sharpObs 1 = (Matrix.of fun _ _ : Fin 1 => (2 : ℝ)) := by
        ext i j
        have hi : i = (0 : Fin 1) := Subsingleton.elim (α := Fin 1) i 0
        have hj : j = (0 : Fin 1) := Subsingleton.elim (α := Fin 1) j 0
        subst hi; subst hj
        show gpCov .sqExp h 0 0 + (if (0 : Fin 1) = 0 then (0 : ℝ) ^ 2 + 1 ^ 2 else 0) = 2
        rw [e5]; norm_num
      have c2 : (fun i : Fin sharpObs.length => sharpObs[i].y) = fun _ : Fin 1 => (0 : ℝ) := by
        funext i
        have hi : i = (0 : Fin 1) := Subsingleton.elim (α := Fin 1) i 0
        subst hi; rfl
      rw [c1, c2]
      rfl
    have e3' : ({ g1 with st := { g1.st with rows := g.st.names.map (gpRow h 0 1) } } : GPState).kernel.kind = .sqExp := e3
    rw [e3', hd, hval 2 (by norm_num)]
    intro hcon
    have hlog : log (2 * π * (exp (-25) + 1)) = log (2 * π * 2) := by linarith
    have := log_injOn_pos (by show (0 : ℝ) < _; positivity) (by show (0 : ℝ) < _; positivity) hlog
    have h3 : exp (-25 : ℝ) < 1 := Real.exp_lt_one_iff.2 (by norm_num)
    have h4 := pi_pos
    nlinarith

/-- C87: with a quasi-periodic kernel of amplitude zero, `predict` at any number of times other than that of the data raises a `ValueError`, in every reachable state, and
leaves the wrong distances. -/
theorem C87_disabled_violated (mod : Curve) (hmod : mod.DictFree) (G : GPLike) (g : GPState) (Ls : List RVLike) (hg : GPReach mod G g Ls) (h : String → ℝ)
    (γ jit : ℝ) (M : ℝ → ℝ) (hc : GPContext mod G g h γ jit M) (hk : g.kernel.kind = .quasiPer) (h0 : h "gp_amp" = 0) (h1 : 0 ≤ h "gp_per") (h2 : 0 ≤ h "gp_explength")
    (h3 : 0 ≤ h "gp_perlength") (he : ∀ o ∈ G.rv.obs, o.err ≠ 0 ∨ jit ≠ 0) (xp : List ℝ) (hx : xp.length ≠ G.rv.obs.length) :
    (G.predict mod xp g).2 = .error .valueError ∧ (G.predict mod xp g).1.kernel.x1 = xp :=
  have := predict_disabled hmod hg.inv hc hk h0 h1 h2 h3 he xp hx
  ⟨this.1, this.2.1⟩

/-- Non-vacuity of `C87_disabled_violated`. -/
example (drive : Drive) (tb : ℝ) : ∃ G g, GPReach (fun s t => modelCall drive tb s none t) G g [G.rv] ∧ g.kernel.kind = .quasiPer ∧
    GPContext (fun s t => modelCall drive tb s none t) G g zeroAmp 1 3 (fun _ => 0) ∧ zeroAmp "gp_amp" = 0 ∧ 0 ≤ zeroAmp "gp_per" ∧ 0 ≤ zeroAmp "gp_explength" ∧
    0 ≤ zeroAmp "gp_perlength" ∧ (∀ o ∈ G.rv.obs, o.err ≠ 0 ∨ (3 : ℝ) ≠ 0) ∧ [(0 : ℝ), 1, 2].length ≠ G.rv.obs.length := by
  obtain ⟨G, g, h1, h2, h3, h4, h5, h6, h7, h8⟩ := gpWitness drive tb .quasiPer gpObs
  refine ⟨G, _, h1.put (h6 zeroAmp 1 3), h4, h8 _ _ _, by simp [zeroAmp], by simp [zeroAmp], by simp [zeroAmp], by simp [zeroAmp], fun o _ => .inr (by norm_num), ?_⟩
  rw [h5]; simp [gpObs]

/-! ## C89 -/

/-- C89: evaluating a GP likelihood brings the dictionary into step with the vector for the hyperparameters: after a `logprob` that returns, the dictionary entry of every
hyperparameter has the value of its row and its other attributes are as before; all other entries, and the vector, are untouched. (So a value assigned to a
hyperparameter in the dictionary is lost if a likelihood is evaluated before `dict_to_vector`.) -/
theorem C89_writes_through (mod : Curve) (G : GPLike) (g : GPState) (Ls : List RVLike) (hg : GPReach mod G g Ls) (v : Fl) (hv : (G.logprob mod g).2 = .ok v) :
    (G.logprob mod g).1.st.rows = g.st.rows ∧ (G.logprob mod g).1.st.indices = g.st.indices ∧
    (∀ k, k ∉ G.hnames → (G.logprob mod g).1.st.params.items.get? k = g.st.params.items.get? k) ∧
    ∀ k ∈ G.hnames, ∃ i r q, g.st.indices.get? k = some i ∧ g.st.rows[i]? = some r ∧ g.st.params.items.get? k = some q ∧
      (G.logprob mod g).1.st.params.items.get? k = some { q with value := r.value } := by
  have f := update_frame G g
  have hok : (G.update g).2 = .ok () := by
    unfold GPLike.logprob at hv
    rcases hu : G.update g with ⟨g1, res⟩
    rw [hu] at hv
    cases res with
    | error e => cases hv
    | ok u => rfl
  obtain ⟨k, h1, _⟩ := logprob_state mod G g
  rw [h1]
  obtain ⟨d1, d2⟩ := updateLoop_dict _ hg.inv hok
  refine ⟨f.rows, f.indices, d1, ?_⟩
  intro k hk
  obtain ⟨i, r, hi, hr⟩ := hg.inv.row hk
  obtain ⟨q, hq⟩ := Dict.exists_get?_of_mem _ (hg.inv.keys k hk)
  exact ⟨i, r, q, hi, hr, hq, d2 k hk i r hi hr q hq (.inl (Dict.mem_keys_of_get? _ hi))⟩

/-- Non-vacuity of C89: `logprob` returns although (or because) vector and dictionary differ. -/
example (drive : Drive) (tb : ℝ) (kind : KernelKind) : ∃ G g v, GPReach (fun s t => modelCall drive tb s none t) G g [G.rv] ∧ g.kernel.kind = kind ∧
    (G.logprob (fun s t => modelCall drive tb s none t) g).2 = .ok v := by
  obtain ⟨G, g, h1, h2, h3, h4, h5, h6, h7, h8⟩ := gpWitness drive tb kind gpObs
  exact ⟨G, _, _, h1.put (h6 exampleHyper 1 0), h4,
    C88_logprob _ (modelCall_dictFree drive tb) G _ _ (h1.put (h6 exampleHyper 1 0)) h2 exampleHyper 1 0 _ (h8 _ _ _) (exampleHyper_regular _)⟩

end Radvel
