import Verif.Lemmas.OrbitPlot
import Verif.Props.FastBin
import Verif.Lemmas.Setup
import Verif.Lemmas.RVLikeData
import Verif.Props.RVLike

/-!
# C140-C143: what the RV figure shows
-/

namespace Radvel
open Real

/-! ## C140: velocities over time -/

/-- C140: at the time of each observation the figure shows its velocity minus the offset of its own instrument and the decorrelation terms, with an error bar of `√(errvel² + jit²)`, and below it the
residual from the sum of all planets and the trend (missing: decorrelation variables of the kinds for which decorrelation does not work, see C31, and instruments sharing a suffix). -/
theorem C140_velocities_partial (dflt : ℝ) (drive : Drive) (tb : ℝ) (s : VState ℝ) (Ls : List RVLike) (h : Likes s Ls) (dv : RVLike → List String) (dc : RVLike → String → ℝ) (hd : ∀ L ∈ Ls, PlainDecorr s.params L (dv L) (dc L))
    (hn : (Ls.map RVLike.suffix).Nodup) (a : PlotArgs) (f : OrbitFig) (hf : orbitInit dflt drive tb s Ls a = .ok f)
    (orb : Nat → Synth) (ho : Elements s.params orb) (v : Nat → ℝ → ℝ) (hv : ∀ m, IsPlanet s.params m → ∀ x ∈ allObs Ls, drive x.2.t (orb m) = some (v m x.2.t))
    (γ : RVLike → ℝ) (hγ : ∀ L ∈ Ls, readPar f.st (.inst .gamma L.suffix) = .ok (γ L)) :
    f.rvtimes = (allObs Ls).map (fun x => x.2.t) ∧
    f.vels = (allObs Ls).map (fun x => some (x.2.y - γ x.1 - decorrTerm x.1 (dv x.1) (dc x.1) x.2)) ∧
    f.rverr = (allObs Ls).map (fun x => √(x.2.err ^ 2 + jitterOf s.params x.1 ^ 2)) ∧
    f.rawresid = (allObs Ls).map (fun x => some (x.2.y - γ x.1 - decorrTerm x.1 (dv x.1) (dc x.1) x.2 - (∑ m ∈ Finset.Icc 1 s.params.numPlanets, v m x.2.t + trendTerm s.params tb x.2.t))) ∧
    f.telvec = (allObs Ls).map (fun x => instrumentName x.1.suffix) := by
  rw [instrumentName_eq]
  obtain ⟨s1, longp, g, hc, hb1, e2, e3, e4, e5, e6, e7, e8, e9, e10, e11⟩ := orbitInit_fig dflt drive tb s Ls h dv dc hd hn a f hf
  have hγ' : ∀ L ∈ Ls, offsetIn s1 (curveAt drive s.params tb none) L = γ L := by
    intro L hL
    have := e10 L hL
    rw [hγ L hL] at this
    exact (Except.ok.inj this).symm
  have hcurve : ∀ x ∈ allObs Ls, curveAt drive s.params tb none x.2.t = some (∑ m ∈ Finset.Icc 1 s.params.numPlanets, v m x.2.t + trendTerm s.params tb x.2.t) :=
    fun x hx => curveAt_sum drive s.params tb x.2.t (fun m => v m x.2.t) (fun m hm => by
      unfold planetVel
      rw [← ho.eq hc m hm]; exact hv m hm x hx)
  have htimes : f.rvtimes = (allObs Ls).map (fun x => x.2.t) := by rw [e11]; exact flatMap_allObs Ls (fun _ o => o.t)
  have hres : f.rawresid = (allObs Ls).map (fun x => some (x.2.y - γ x.1 - decorrTerm x.1 (dv x.1) (dc x.1) x.2 - (∑ m ∈ Finset.Icc 1 s.params.numPlanets, v m x.2.t + trendTerm s.params tb x.2.t))) := by
    rw [e11]
    refine (flatMap_allObs Ls _).trans ?_
    apply List.map_congr_left
    intro x hx
    rw [e2, hcurve x hx, hγ' x.1 (mem_allObs.1 hx).1]
    exact congrArg some (by ring)
  refine ⟨htimes, ?_, by rw [e11, ← e2]; exact flatMap_allObs Ls _, hres, by rw [e11]; exact flatMap_allObs Ls (fun L _ => telOf L.suffix)⟩
  have hmod : f.rvmod = (allObs Ls).map (fun x => curveAt drive s.params tb none x.2.t) := by
    have : f.rvmod = f.rvtimes.map (curveAt drive s.params tb none) := by rw [e11, ← e2]; rfl
    rw [this, htimes, List.map_map]
    rfl
  unfold OrbitFig.vels
  rw [hres, hmod, zipWith_map_map]
  apply List.map_congr_left
  intro x hx
  rw [hcurve x hx]
  simp only [addNan]
  congr 1
  ring

/-- C140: the offset is the one in the dictionary, unless it is found analytically (then it is the one written back, see C27). -/
theorem C140_offset (dflt : ℝ) (drive : Drive) (tb : ℝ) (s : VState ℝ) (Ls : List RVLike) (h : Likes s Ls) (dv : RVLike → List String) (dc : RVLike → String → ℝ) (hd : ∀ L ∈ Ls, PlainDecorr s.params L (dv L) (dc L))
    (hn : (Ls.map RVLike.suffix).Nodup) (a : PlotArgs) (f : OrbitFig) (hf : orbitInit dflt drive tb s Ls a = .ok f) (L : RVLike) (hL : L ∈ Ls) :
    ∃ q g, s.params.items.get? (.inst .gamma L.suffix) = some q ∧ readPar f.st (.inst .gamma L.suffix) = .ok g ∧ (¬ Analytic q → g = q.value) := by
  obtain ⟨s1, longp, g, hc, hb1, e2, e3, e4, e5, e6, e7, e8, e9, e10, e11⟩ := orbitInit_fig dflt drive tb s Ls h dv dc hd hn a f hf
  have hon := e5 L hL
  obtain ⟨q, hq⟩ := Dict.exists_get?_of_mem _ (hb1.inv.1.ext _ _ rfl rfl hon.gamma).1
  refine ⟨q, _, by rw [← e2]; exact hq, e10 L hL, ?_⟩
  intro hna
  have hg := e4.rows _ q _ hq hon.gamma
  obtain ⟨g', j, h1, h2, _, _⟩ := On.rows hb1 hon
  rw [hg] at h1
  cases h1
  unfold offsetIn gammaUsed
  rw [hg, h2]
  simp only
  rw [if_neg]
  · rfl
  · intro hc
    apply hna
    simp [Row.analytic, mkRow] at hc
    exact ⟨hc.1, hc.2⟩

theorem maxReal_ok (l : List ℝ) (h : l ≠ []) : ∃ b, maxReal l = .ok b := by
  cases l with
  | nil => exact absurd rfl h
  | cons a t => exact ⟨_, rfl⟩

theorem minReal_ok (l : List ℝ) (h : l ≠ []) : ∃ b, minReal l = .ok b := by
  cases l with
  | nil => exact absurd rfl h
  | cons a t => exact ⟨_, rfl⟩

theorem longPeriod_eq (dflt : ℝ) (p q : Params ℝ) (hp : Complete p) (hq : toSynth dflt p.basis true p = .ok q) (orb : Nat → Synth) (ho : Elements p orb) (times : List ℝ) :
    longPeriod q p.numPlanets times = if p.numPlanets = 0 then (do
        let b ← maxReal times
        let a ← minReal times
        return b - a)
      else maxReal ((List.range p.numPlanets).map (fun i => (orb (i + 1)).per)) := by
  have hper : ∀ i ∈ List.range p.numPlanets, periodOf q i = .ok (orb (i + 1)).per := by
    intro i hi
    have hm : IsPlanet p (i + 1) := ⟨by omega, by simp at hi; omega⟩
    obtain ⟨q'', t1, _, _, _, _, t6⟩ := toSynth_values dflt true p hp
    rw [hq] at t1; cases t1
    have hsp := (t6 _ hm).per
    rw [← ho.eq hp _ hm] at hsp
    obtain ⟨r, hr, hrv⟩ : ∃ r, q.items.get? (.orb .per (i + 1)) = some r ∧ r.value = (orb (i + 1)).per := by simpa [valueOf] using hsp
    unfold periodOf
    rw [Dict.get_of_get? _ _ _ hr]
    exact congrArg Except.ok hrv
  unfold longPeriod
  simp only [mapM_map_ok _ _ _ hper, bind, Except.bind]
  by_cases h0 : p.numPlanets = 0
  · simp [h0]
  · rw [if_pos (by simpa using h0), if_neg h0]

/-- C140: the figure is made exactly when the dictionary has both trend parameters and there are data (without data it can still be made for a chosen time range and at least one planet). -/
theorem C140_made_partial (dflt : ℝ) (drive : Drive) (tb : ℝ) (s : VState ℝ) (Ls : List RVLike) (h : Likes s Ls) (dv : RVLike → List String) (dc : RVLike → String → ℝ) (hd : ∀ L ∈ Ls, PlainDecorr s.params L (dv L) (dc L))
    (hn : (Ls.map RVLike.suffix).Nodup) (a : PlotArgs) :
    (∃ f, orbitInit dflt drive tb s Ls a = .ok f) ↔
      Key.dvdt ∈ s.params.items.keys ∧ Key.curv ∈ s.params.items.keys ∧ (allObs Ls ≠ [] ∨ (a.setXlim ≠ none ∧ 1 ≤ s.params.numPlanets)) := by
  obtain ⟨s1, s2, synth, e1, e2, e3, e4, e5, e6, e7, e8, e9⟩ := orbitInit_eq dflt drive tb s Ls h dv dc hd hn a
  obtain ⟨hb1, hon1⟩ := e5.built
  have hcomp : Complete s.params := by
    rw [← e2]
    exact ⟨hb1.inv.1.nodup, fun x hx m hm => (hb1.inv.1.orb x m).2 ⟨hx, hm⟩⟩
  have htimes : Ls.flatMap (fun L => L.obs.map Obs.t) = (allObs Ls).map (fun x => x.2.t) := flatMap_allObs Ls (fun _ o => o.t)
  rw [e9, htimes]
  rw [← Dict.get?_isSome_iff, ← Dict.get?_isSome_iff]
  cases hdv : s.params.items.get? .dvdt with
  | none => simp
  | some d =>
    cases hcv : s.params.items.get? .curv with
    | none => simp
    | some c =>
      simp only [Option.isSome_some, true_and, longPeriod_eq dflt s.params synth hcomp e7 _ (elements_exist _ hcomp), bind, Except.bind]
      by_cases ho : allObs Ls = []
      · rw [ho]
        by_cases h0 : s.params.numPlanets = 0
        · simp [h0, maxReal]
        · rw [if_neg h0]
          obtain ⟨b, hb⟩ := maxReal_ok ((List.range s.params.numPlanets).map (fun i => (synthOfVals s.params.basis (valsOf s.params (i + 1))).per)) (by simpa using h0)
          rw [hb]
          cases hx : a.setXlim with
          | none => simp [gridOf, hx, maxReal, bind, Except.bind]
          | some x =>
            obtain ⟨x0, x1⟩ := x
            simp only [gridOf, hx]
            constructor
            · intro _; exact .inr ⟨by simp, by omega⟩
            · intro _; exact ⟨_, rfl⟩
      · have hne : (allObs Ls).map (fun x => x.2.t) ≠ [] := by simpa using ho
        obtain ⟨b, hb⟩ := maxReal_ok _ hne
        obtain ⟨c', hc'⟩ := minReal_ok _ hne
        refine ⟨fun _ => .inl ho, fun _ => ?_⟩
        have hlp : ∃ longp, (if s.params.numPlanets = 0 then (do
            let b ← maxReal ((allObs Ls).map (fun x => x.2.t))
            let a ← minReal ((allObs Ls).map (fun x => x.2.t))
            return b - a)
          else maxReal ((List.range s.params.numPlanets).map (fun i => (synthOfVals s.params.basis (valsOf s.params (i + 1))).per)) : Except PyErr ℝ) = .ok longp := by
          by_cases h0 : s.params.numPlanets = 0
          · rw [if_pos h0, hb, hc']; exact ⟨_, rfl⟩
          · rw [if_neg h0]
            exact maxReal_ok _ (by simpa using h0)
        obtain ⟨longp, hlp⟩ := hlp
        simp only [bind, Except.bind] at hlp
        rw [hlp]
        cases hx : a.setXlim with
        | none => simp only [gridOf, hx, hb, hc', bind, Except.bind, pure, Except.pure]; exact ⟨_, rfl⟩
        | some x => obtain ⟨x0, x1⟩ := x; simp only [gridOf, hx]; exact ⟨_, rfl⟩

/-- C140 fails for a posterior without `dvdt` or `curv`, which the model itself accepts (they count as zero): no figure is made, `KeyError`. -/
theorem C140_trend_violated (dflt : ℝ) (drive : Drive) (tb : ℝ) (s : VState ℝ) (Ls : List RVLike) (h : Likes s Ls) (dv : RVLike → List String) (dc : RVLike → String → ℝ) (hd : ∀ L ∈ Ls, PlainDecorr s.params L (dv L) (dc L))
    (hn : (Ls.map RVLike.suffix).Nodup) (a : PlotArgs) (hno : Key.dvdt ∉ s.params.items.keys ∨ Key.curv ∉ s.params.items.keys) :
    orbitInit dflt drive tb s Ls a = .error .keyError := by
  obtain ⟨s1, s2, synth, e1, e2, e3, e4, e5, e6, e7, e8, e9⟩ := orbitInit_eq dflt drive tb s Ls h dv dc hd hn a
  rw [e9]
  rcases hno with hno | hno
  · rw [(Dict.get?_eq_none_iff _ _).2 hno]
  · rw [(Dict.get?_eq_none_iff _ _).2 hno]
    cases s.params.items.get? .dvdt <;> rfl

/-! ### Non-vacuity -/

theorem RVLike.new_keeps {s : VState ℝ} (hs : Built s) (obs : List Obs) (suffix : String) (vars : List String) (keys : List (List Char)) :
    ∃ s' L, RVLike.new s obs suffix vars keys = .ok (s', L) ∧ s'.params.numPlanets = s.params.numPlanets ∧ s'.params.basis = s.params.basis ∧
      ∀ k q, s.params.items.get? k = some q → s'.params.items.get? k = some q := by
  obtain ⟨s', L, h1, h2⟩ := RVLike.new_ok hs obs suffix vars keys
  have hk : ∀ k ∈ [Key.inst .gamma suffix, .inst .jit suffix] ++ (vars.map (decorrName suffix)).map Key.other, ∀ p n, k ≠ .orb p n := by
    intro k hk p n
    simp only [List.mem_append, List.mem_cons, List.mem_map, List.not_mem_nil, or_false] at hk
    rcases hk with (rfl | rfl) | ⟨a, _, rfl⟩ <;> simp
  obtain ⟨s2, e1, _, _, _, _, e6, e7, e8⟩ := likelihood_fresh hs.inv.1 [.inst .gamma suffix, .inst .jit suffix] ((vars.map (decorrName suffix)).map Key.other) hk
    (by rw [hs.inv.2]; simp)
  have : s' = s2 := by
    unfold RVLike.new at h1
    simp only [e1] at h1
    split at h1
    · exact (congrArg Prod.fst (Except.ok.inj h1)).symm
    · cases h1
  subst this
  exact ⟨s', L, h1, h2, e7, e8⟩

/-- Parameters of one planet in the basis `per tp e w k`, all equal to 1/2, with a trend. -/
noncomputable def halfPlanet : Params ℝ :=
  ((Params.init (1 / 2 : ℝ) 1 .perTpEWK none).setItem .dvdt ⟨1, .yes, none, false⟩).setItem .curv ⟨2, .yes, none, false⟩

theorem halfPlanet_user : UserParams halfPlanet := .set _ _ _ (.set _ _ _ (.new _ _ _ _ (by decide)) (.inr (.inl rfl)) (by simp)) (.inr (.inr (.inl rfl))) (by simp)

/-- A posterior with one planet and one likelihood with the given data, for which the hypotheses of C140 to C143 hold and the figure is made. -/
theorem figWitness (obs : List Obs) (hne : obs ≠ []) (drive : Drive) (tb : ℝ) (a : PlotArgs) :
    ∃ s L f orb, Likes s [L] ∧ L.obs = obs ∧ PlainDecorr s.params L ["x"] (fun _ => 7) ∧ orbitInit 0 drive tb s [L] a = .ok f ∧ Elements s.params orb ∧ IsPlanet s.params 1 ∧ s.params.numPlanets = 1 ∧
      orb 1 = ⟨1 / 2, 1 / 2, 1 / 2, 1 / 2, 1 / 2⟩ ∧ ephemeris s.params orb 1 = 1 / 2 ∧ ∃ g, readPar f.st (.inst .gamma L.suffix) = .ok g := by
  obtain ⟨s0, h1, _, _, h4, _⟩ := halfPlanet_user.model
  have hb : Built s0 := .model _ s0 halfPlanet_user h1
  obtain ⟨s', L, k1, k2, k3, k4'⟩ := RVLike.new_keeps hb obs "_a" ["x"] [['x']]
  obtain ⟨b1', bon, b3, b4, b5, b6, _⟩ := RVLike.new_built _ _ _ _ _ _ _ hb k1
  rw [h4] at k2 k3 k4'
  have hl' : Likes s' [L] := .like s0 s' [] L (.start _ hb) _ _ _ _ k1
  have hmem' : Key.other "c1_x_a" ∈ s'.params.items.keys := by
    obtain ⟨i, hi⟩ := bon.dec "c1_x_a" (by rw [b5]; decide)
    exact (b1'.inv.1.ext _ _ rfl rfl hi).1
  obtain ⟨s, hs⟩ : ∃ s, s = { s' with params := s'.params.setItem (.other "c1_x_a") ⟨7, .yes, none, false⟩ } := ⟨_, rfl⟩
  have hl : Likes s [L] := by rw [hs]; exact .edit s' [L] _ _ hl' (.inl hmem') (by simp)
  have b1 : Built s := hl.built.1
  have k4 : ∀ k q, halfPlanet.items.get? k = some q → s.params.items.get? k = some q := by
    intro k q hq
    rw [hs]
    show (s'.params.items.set (.other "c1_x_a") _).get? k = _
    rw [Dict.get?_set_ne _ _ ?_]
    · exact k4' k q hq
    · rintro rfl
      have : halfPlanet.items.get? (.other "c1_x_a") = none := rfl
      rw [this] at hq
      cases hq
  have hplain : PlainDecorr s.params L ["x"] (fun _ => 7) := by
    refine ⟨by rw [b5, b3], by simp, by simp [b6], by simp, fun _ => .inr ⟨['a'], by rw [b3]; rfl⟩, by simp, ?_⟩
    intro d hd
    simp only [List.mem_singleton] at hd
    subst hd
    refine ⟨⟨7, .yes, none, false⟩, ?_, rfl⟩
    rw [b3, hs]
    exact Dict.get?_set_self _ _ _
  have hcomp : Complete s.params := ⟨b1.inv.1.nodup, fun x hx m hm => (b1.inv.1.orb x m).2 ⟨hx, hm⟩⟩
  have hN : s.params.numPlanets = 1 := by rw [hs]; exact k2
  have hB : s.params.basis = .perTpEWK := by rw [hs]; exact k3
  have hval : ∀ x ∈ BasisName.words .perTpEWK, valueOf s.params x 1 = some (1 / 2) := by
    intro x hx
    have : ∀ x ∈ BasisName.words .perTpEWK, ∃ q, halfPlanet.items.get? (.orb x 1) = some q ∧ q.value = 1 / 2 := by
      intro x hx
      simp only [BasisName.words, List.mem_cons, List.not_mem_nil, or_false] at hx
      rcases hx with rfl | rfl | rfl | rfl | rfl <;> exact ⟨_, rfl, rfl⟩
    obtain ⟨q, hq, hv⟩ := this x hx
    unfold valueOf
    rw [k4 _ _ hq, Option.map_some, hv]
  have hobs : allObs [L] ≠ [] := by
    rw [show allObs [L] = L.obs.map (fun o => (L, o)) by simp [allObs], b4]
    simpa using hne
  have hmem : ∀ k q, halfPlanet.items.get? k = some q → k ∈ s.params.items.keys := fun k q hq => Dict.mem_keys_of_get? _ (k4 k q hq)
  obtain ⟨f, hf⟩ := (C140_made_partial 0 drive tb s [L] hl (fun _ => ["x"]) (fun _ _ => 7) (by simpa using hplain) (by simp) a).2
    ⟨hmem .dvdt _ rfl, hmem .curv _ rfl, .inl hobs⟩
  obtain ⟨q, g, _, hg, _⟩ := C140_offset 0 drive tb s [L] hl (fun _ => ["x"]) (fun _ _ => 7) (by simpa using hplain) (by simp) a f hf L (by simp)
  refine ⟨s, L, f, _, hl, b4, hplain, hf, elements_exist _ hcomp, ⟨le_refl _, by rw [hN]⟩, hN, ?_, ?_, g, hg⟩
  · simp only [hB]
    show (⟨valsOf s.params 1 .per, valsOf s.params 1 .tp, valsOf s.params 1 .e, valsOf s.params 1 .w, valsOf s.params 1 .k⟩ : Synth) = _
    simp only [valsOf, hval .per (by decide), hval .tp (by decide), hval .e (by decide), hval .w (by decide), hval .k (by decide), Option.getD_some]
  · unfold ephemeris
    have htc : valueOf s.params .tc 1 = none := by
      unfold valueOf
      rw [(Dict.get?_eq_none_iff _ _).2, Option.map_none]
      intro hc
      have := ((b1.inv.1.orb .tc 1).1 hc).1
      rw [hB] at this
      revert this
      decide
    rw [htc, Option.getD_none, hB]
    show valsOf s.params 1 .tp = _
    simp only [valsOf, hval .tp (by decide), Option.getD_some]

/-- Non-vacuity of C140. -/
example (drive : Drive) (v : ℝ → ℝ) (hd : ∀ t o, drive t o = some (v t)) (tb : ℝ) : ∃ s L f, Likes s [L] ∧ L.obs = witnessObs ∧ orbitInit 0 drive tb s [L] {} = .ok f ∧
    ∃ γ, f.vels = witnessObs.map (fun o => some (o.y - γ - 7 * ((o.dec ['x']).toReal - 1))) := by
  obtain ⟨s, L, f, orb, h1, h2, h3, h4, h5, h6, h7, h8, _, g, hg⟩ := figWitness witnessObs (by simp [witnessObs]) drive tb {}
  refine ⟨s, L, f, h1, h2, h4, g, ?_⟩
  obtain ⟨_, h, _⟩ := C140_velocities_partial 0 drive tb s [L] h1 (fun _ => ["x"]) (fun _ _ => 7) (by simpa using h3) (by simp) {} f h4 orb h5 (fun _ t => v t) (fun m _ x _ => hd _ _) (fun _ => g) (by simpa using hg)
  rw [h, show allObs [L] = L.obs.map (fun o => (L, o)) by simp [allObs], h2, List.map_map]
  apply List.map_congr_left
  intro o ho
  have hm : mean (witnessObs.map fun o => (o.dec ['x']).toReal) = 1 := by norm_num [witnessObs, mean, Fl.toReal]
  have hd' : decorrTerm L ["x"] (fun _ => 7) o = 7 * ((o.dec ['x']).toReal - 1) := by
    unfold decorrTerm
    rw [h2, List.filter_cons_of_pos (by simp [witnessObs, Fl.isFinite]), List.filter_nil]
    rw [List.map_singleton, List.sum_singleton, show "x".toList = ['x'] from rfl, hm]
  simp only [Function.comp, hd']

/-- Non-vacuity of `C140_trend_violated`: a posterior without a trend. -/
example (drive : Drive) (tb : ℝ) (a : PlotArgs) : ∃ s L, Likes s [L] ∧ L.obs = witnessObs ∧ orbitInit 0 drive tb s [L] a = .error .keyError := by
  have hu : UserParams (Params.init (0 : ℝ) 0 .perTpEWK none) := .new _ _ _ _ (by decide)
  obtain ⟨s0, h1, _, _, h4, _⟩ := hu.model
  have hb : Built s0 := .model _ s0 hu h1
  obtain ⟨s, L, k1, _⟩ := RVLike.new_ok hb witnessObs "_a" [] []
  obtain ⟨b1, _, b3, b4, b5, _⟩ := RVLike.new_built _ _ _ _ _ _ _ hb k1
  have hl : Likes s [L] := .like s0 s [] L (.start _ hb) _ _ _ _ k1
  refine ⟨s, L, hl, b4, C140_trend_violated 0 drive tb s [L] hl (fun _ => []) (fun _ _ => 0) (by simpa using PlainDecorr.none (by simp [b5]) _) (by simp) a (.inl ?_)⟩
  obtain ⟨e1, _⟩ := RVLike.new_inv k1
  have hp := addLikelihood_params _ _ _ _ e1
  rw [show s.params = _ from hp]
  intro hc
  obtain ⟨q, hq⟩ := Dict.exists_get?_of_mem _ hc
  rcases addExtras_new _ _ _ _ _ hq with hq | ⟨hq, _⟩
  · rw [h4] at hq; cases hq
  · simp at hq

end Radvel
