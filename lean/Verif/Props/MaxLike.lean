import Verif.Py.FloatOps
import Verif.Lemmas.MaxLike
import Verif.Lemmas.GPReach
import Verif.Lemmas.RVLikeData
import Verif.Props.RVLike
import Verif.Props.History

/-!
# C69: the maximum-likelihood fit
-/

namespace Radvel

/-- The state after a successful fit and how it relates to the one before. -/
theorem fit_result (mod : Curve) (hmod : mod.Orbital) (hdict : mod.DictFree) (Ls : List RVLike) (p : PostState) (hL : Likes p.st Ls)
    (hc : p.likeCache = none ∨ p.likeCache = some (freeRows p.st.rows)) (hg : ∀ r ∈ p.priors, r.GammaFree p.st) (opt : Optimiser) (fuel : Nat) (q : PostState) (h : List (List ℝ × Fl))
    (hrun : maxlikeFitting (compositeLogprob (Ls.map fun L => L.logprob mod)) opt fuel p = (q, .ok h)) :
    (∀ x v, (x, v) ∈ h → ∃ w, (p.logprobArray (compositeLogprob (Ls.map fun L => L.logprob mod)) x).2 = .ok w ∧ v = w.minus) ∧
    (∀ i : Nat, ¬ AnalyticGamma p.st i → i ∉ freeRows p.st.rows → q.st.rows[i]? = p.st.rows[i]?) ∧
    (∀ k par, q.st.params.items.get? k = some par → ∃ i r, q.st.indices.get? k = some i ∧ q.st.rows[i]? = some r ∧ par.value = r.value) ∧
    (∀ pre x v, h = pre ++ [(x, v)] → q.likeState.getVaryParams.2 = .ok x ∧ ∃ w, logprob (LikeEval.value (compositeLogprob (Ls.map fun L => L.logprob mod))) q.st q.priors = .ok w ∧ v = w.minus) := by
  obtain ⟨hs, hon⟩ := hL.built
  have hPr : RowFree (fun s => ∀ L ∈ Ls, L.On s) :=
    fun s s' h _ hi L hL => ⟨by rw [hi]; exact (h L hL).gamma, by rw [hi]; exact (h L hL).jit, by rw [hi]; exact (h L hL).dec⟩
  have hfr := composite_framed mod hmod Ls
  set like := compositeLogprob (Ls.map fun L => L.logprob mod) with hlike
  unfold maxlikeFitting at hrun
  rcases hx0 : p.ownState.getVaryParams with ⟨l, e | x0⟩
  · rw [hx0] at hrun; cases hrun
  rw [hx0] at hrun
  simp only [] at hrun
  set p0 : PostState := { p with postCache := l.cache } with hp0
  rcases hm : minimize like opt x0 fuel p0 [] with ⟨q', e | h'⟩
  · rw [hm] at hrun; cases hrun
  rw [hm] at hrun
  simp only [] at hrun
  rcases hd : q'.st.vectorToDict with e | st
  · rw [hd] at hrun; cases hrun
  rw [hd] at hrun
  simp only [Prod.mk.injEq, Except.ok.injEq] at hrun
  obtain ⟨hq, rfl⟩ := hrun
  obtain ⟨t, ht, hq', hvals⟩ := minimize_inv like opt x0 fuel p0 [] q' h' hm
  simp only [List.nil_append] at ht
  subst ht
  have hist := fun cs xs => (history hPr hfr p0 hs hon hc hg cs xs).1
  have hp0p : ∀ xs, (p0.logprobArray like xs).2 = (p.logprobArray like xs).2 := fun xs => by
    unfold PostState.logprobArray
    rw [setFast_spec p hc, setFast_spec p0 hc]
    have : writeVals (freeRows p0.st.rows) xs p0.st.rows = writeVals (freeRows p.st.rows) xs p.st.rows := rfl
    rw [this]
    rcases (writeVals (freeRows p.st.rows) xs p.st.rows).2 with _ | e <;> rfl
  have hsim : PostSim p0 q' := by rw [hq']; exact (PostSim.refl p0 hc).runAll hPr hfr hs hon _
  have hst : ∃ items, st = q'.st.withItems items := by
    unfold VState.vectorToDict at hd
    rcases hr : readValues q'.st.indices q'.st.rows q'.st.params.items with e | items
    · rw [hr] at hd; cases hd
    · rw [hr] at hd; cases hd; exact ⟨items, rfl⟩
  obtain ⟨items, hst⟩ := hst
  refine ⟨?_, ?_, ?_, ?_⟩
  · intro x v hxv
    obtain ⟨a, b, hab⟩ := List.append_of_mem hxv
    obtain ⟨w, h1, h2⟩ := hvals a x v b hab
    exact ⟨w, by rw [← hp0p, ← hist]; exact h1, h2⟩
  · intro i hi hf
    rw [← hq, hst]
    exact hsim.rows i hi hf
  · intro k par hk
    have hb : Built q'.st := hsim.built hs
    obtain ⟨s', e1, e2, e3, e4⟩ := C02_read_own_row q'.st hb
    rw [hd] at e1; cases e1
    rw [← hq] at hk ⊢
    change st.params.items.get? k = some par at hk
    have hmem : k ∈ q'.st.params.items.keys := by rw [← e3]; exact Dict.mem_keys_of_get? _ hk
    obtain ⟨par', hpar'⟩ := Dict.exists_get?_of_mem _ hmem
    obtain ⟨i, r, f1, f2, f3⟩ := e4 k par' hpar'
    rw [hk] at f3
    cases f3
    refine ⟨i, r, ?_, ?_, rfl⟩
    · rw [hst]; exact f1
    · rw [hst]; exact f2
  · intro pre x v hpre
    obtain ⟨w, h1, h2⟩ := hvals pre x v [] hpre
    set pk := p0.runAll like (pre.map fun y => .logprobArray y.1) with hpk
    have hk : PostSim p0 pk := (PostSim.refl p0 hc).runAll hPr hfr hs hon _
    have hq'' : q' = (pk.logprobArray like x).1 := by
      rw [hq', hpre, hpk]
      unfold PostState.runAll
      rw [List.map_append, List.foldl_append]
      rfl
    -- the evaluation succeeded, so the array had the right length
    have hlen : x.length = (freeRows pk.st.rows).length := by
      unfold PostState.logprobArray at h1
      rw [setFast_spec pk hk.cache] at h1
      rcases hw : (writeVals (freeRows pk.st.rows) x pk.st.rows).2 with _ | e
      · exact writeVals_length _ _ _ hw
      · rw [hw] at h1; cases h1
    have hset := setFast_at pk hk.cache x hlen
    have hagree : AgreeOff (pk.at x).st q'.st := by
      rw [hq'']
      unfold PostState.logprobArray
      rw [hset]
      simp only []
      have hat : PostSim p0 (pk.at x) := by have := hk.set x; rw [hset] at this; exact this
      exact stateAfter_agree hfr (hat.built hs) (hPr _ _ hon hat.params hat.indices) _
    have hread : readVals q'.st.rows (freeRows q'.st.rows) = .ok x := by
      rw [readVals_agree hagree]
      show readVals (setAll pk.st.rows x) (freeRows (setAll pk.st.rows x)) = _
      rw [setAll_free, readVals_setAll _ _ hlen]
    constructor
    · rw [← hq, hst]
      show (LikeState.getVaryParams { st := q'.st.withItems items, cache := q'.likeCache }).2 = _
      unfold LikeState.getVaryParams
      rcases hsim.cache with hcq | hcq
      · rw [hcq]; exact hread
      · rw [hcq]; exact hread
    · refine ⟨w, ?_, h2⟩
      rw [← hq, hst]
      show logprob (LikeEval.value like) (q'.st.withItems items) q'.priors = _
      rw [logprob_items (LikeEval.value like) (composite_items hdict Ls)]
      have hlen' : x.length = (freeRows q'.st.rows).length := by rw [hagree.flags.freeRows]; show _ = (freeRows (setAll pk.st.rows x)).length; rw [setAll_free]; exact hlen
      have hlast : (q'.logprobArray like x).2 = .ok w := by
        rw [hq', hist, ← hist (pre.map fun y => .logprobArray y.1)]
        exact h1
      rw [← hlast]
      unfold PostState.logprobArray
      rw [setFast_at q' hsim.cache x hlen']
      simp only []
      have : (q'.at x).st = q'.st := by
        show ({ q'.st with rows := setAll q'.st.rows x } : VState ℝ) = q'.st
        rw [setAll_own _ _ hread]
      rw [this]
      rfl

/-- C69, what the fit really returns: the parameters are those of the optimiser's last evaluation, whatever solution it returned; the dictionary agrees with the vector; fixed parameters other than
analytically marginalised offsets are unchanged; and `logprob` is the value of that last evaluation. Missing: the optimiser's solution, see `C69_violated`; Gaussian-process likelihoods; priors on analytic
offsets. -/
theorem C69_last_partial (mod : Curve) (hmod : mod.Orbital) (hdict : mod.DictFree) (Ls : List RVLike) (p : PostState) (hL : Likes p.st Ls)
    (hc : p.likeCache = none ∨ p.likeCache = some (freeRows p.st.rows)) (hg : ∀ r ∈ p.priors, r.GammaFree p.st) (opt : Optimiser) (fuel : Nat) (q : PostState) (pre : List (List ℝ × Fl)) (x : List ℝ) (v : Fl)
    (hrun : maxlikeFitting (compositeLogprob (Ls.map fun L => L.logprob mod)) opt fuel p = (q, .ok (pre ++ [(x, v)]))) :
    q.likeState.getVaryParams.2 = .ok x ∧
    (∀ k par, q.st.params.items.get? k = some par → ∃ i r, q.st.indices.get? k = some i ∧ q.st.rows[i]? = some r ∧ par.value = r.value) ∧
    (∀ (i : Nat) r, p.st.rows[i]? = some r → r.vary = false → ¬ AnalyticGamma p.st i → q.st.rows[i]? = some r) ∧
    ∃ w, logprob (LikeEval.value (compositeLogprob (Ls.map fun L => L.logprob mod))) q.st q.priors = .ok w ∧ v = w.minus := by
  obtain ⟨_, h2, h3, h4⟩ := fit_result mod hmod hdict Ls p hL hc hg opt fuel q _ hrun
  obtain ⟨h5, h6⟩ := h4 pre x v rfl
  refine ⟨h5, h3, ?_, h6⟩
  intro i r hr hv ha
  rw [h2 i ha, hr]
  intro hf
  obtain ⟨r', h7, h8⟩ := (mem_freeRows _ _).1 hf
  rw [hr] at h7; cases h7
  rw [hv] at h8; cases h8

/-- C69, when the value does not get worse: if the optimiser first evaluates its starting point and its last evaluation is not worse, then `logprob` does not decrease. -/
theorem C69_not_lower_partial (mod : Curve) (hmod : mod.Orbital) (hdict : mod.DictFree) (Ls : List RVLike) (p : PostState) (hL : Likes p.st Ls)
    (hc : p.likeCache = none ∨ p.likeCache = some (freeRows p.st.rows)) (hg : ∀ r ∈ p.priors, r.GammaFree p.st) (opt : Optimiser) (fuel : Nat) (q : PostState) (x0 : List ℝ)
    (hx0 : p.likeState.getVaryParams.2 = .ok x0) (v0 : ℝ) (mid : List (List ℝ × Fl)) (x : List ℝ) (v : ℝ)
    (hrun : maxlikeFitting (compositeLogprob (Ls.map fun L => L.logprob mod)) opt fuel p = (q, .ok ((x0, .fin v0) :: mid ++ [(x, .fin v)]))) (hv : v ≤ v0) :
    ∃ a b, logprob (LikeEval.value (compositeLogprob (Ls.map fun L => L.logprob mod))) p.st p.priors = .ok (.fin a) ∧
      logprob (LikeEval.value (compositeLogprob (Ls.map fun L => L.logprob mod))) q.st q.priors = .ok (.fin b) ∧ a ≤ b := by
  obtain ⟨h1, _, _, h4⟩ := fit_result mod hmod hdict Ls p hL hc hg opt fuel q _ hrun
  obtain ⟨_, w, h5, h6⟩ := h4 _ x _ rfl
  obtain ⟨w0, h7, h8⟩ := h1 x0 (.fin v0) (by simp)
  have hread : readVals p.st.rows (freeRows p.st.rows) = .ok x0 := by
    unfold PostState.likeState LikeState.getVaryParams at hx0
    rcases hc with hc | hc <;> rw [hc] at hx0 <;> exact hx0
  have hlen : x0.length = (freeRows p.st.rows).length := by
    obtain ⟨vs, c1, c2, _⟩ := readVals_ok p.st.rows (freeRows p.st.rows) (freeRows_lt _)
    rw [hread] at c1; cases c1; exact c2
  have h9 : logprob (LikeEval.value (compositeLogprob (Ls.map fun L => L.logprob mod))) p.st p.priors = .ok w0 := by
    rw [← h7]
    unfold PostState.logprobArray
    rw [setFast_at p hc x0 hlen]
    simp only []
    have : (p.at x0).st = p.st := by
      show ({ p.st with rows := setAll p.st.rows x0 } : VState ℝ) = p.st
      rw [setAll_own _ _ hread]
    rw [this]
    rfl
  cases w0 with
  | fin a =>
    cases w with
    | fin b =>
      refine ⟨a, b, h9, h5, ?_⟩
      have e1 := Fl.fin.inj h8
      have e2 := Fl.fin.inj h6
      linarith
    | _ => cases h6
  | _ => cases h8

/-- An optimiser is honest if its solution is a point that it evaluated and no evaluated point has a smaller value. -/
def Optimiser.Honest (opt : Optimiser) (x0 : List ℝ) (h : List (List ℝ × Fl)) : Prop := ∃ v, (opt.result x0 h, v) ∈ h ∧ ∀ y ∈ h, v.leq y.2

/-- The optimiser that evaluates its starting point, then `b`, and returns the starting point. -/
def evaluatesThen (b : List ℝ) : Optimiser := { next := fun x0 h => if h.length = 0 then some x0 else if h.length = 1 then some b else none, result := fun x0 _ => x0 }

theorem fit_two (mod : Curve) (hmod : mod.Orbital) (Ls : List RVLike) (p : PostState) (hL : Likes p.st Ls)
    (hc : p.likeCache = none ∨ p.likeCache = some (freeRows p.st.rows)) (hown : p.postCache = some (freeRows p.st.rows)) (hg : ∀ r ∈ p.priors, r.GammaFree p.st) (x0 b : List ℝ)
    (hx0 : p.likeState.getVaryParams.2 = .ok x0) (l0 l1 : ℝ)
    (h0 : logprob (LikeEval.value (compositeLogprob (Ls.map fun L => L.logprob mod))) p.st p.priors = .ok (.fin l0))
    (h1 : (p.logprobArray (compositeLogprob (Ls.map fun L => L.logprob mod)) b).2 = .ok (.fin l1)) :
    ∃ q, maxlikeFitting (compositeLogprob (Ls.map fun L => L.logprob mod)) (evaluatesThen b) 2 p = (q, .ok [(x0, .fin (-l0)), (b, .fin (-l1))]) := by
  obtain ⟨hs, hon⟩ := hL.built
  have hPr : RowFree (fun s => ∀ L ∈ Ls, L.On s) :=
    fun s s' h _ hi L hL => ⟨by rw [hi]; exact (h L hL).gamma, by rw [hi]; exact (h L hL).jit, by rw [hi]; exact (h L hL).dec⟩
  have hfr := composite_framed mod hmod Ls
  have hread : readVals p.st.rows (freeRows p.st.rows) = .ok x0 := by
    unfold PostState.likeState LikeState.getVaryParams at hx0
    rcases hc with hc | hc <;> rw [hc] at hx0 <;> exact hx0
  have hlen : x0.length = (freeRows p.st.rows).length := by
    obtain ⟨vs, c1, c2, _⟩ := readVals_ok p.st.rows (freeRows p.st.rows) (freeRows_lt _)
    rw [hread] at c1; cases c1; exact c2
  set like := compositeLogprob (Ls.map fun L => L.logprob mod) with hlike
  have e0 : (p.logprobArray like x0).2 = .ok (.fin l0) := by
    rw [← h0]
    unfold PostState.logprobArray
    rw [setFast_at p hc x0 hlen]
    simp only []
    have : (p.at x0).st = p.st := by
      show ({ p.st with rows := setAll p.st.rows x0 } : VState ℝ) = p.st
      rw [setAll_own _ _ hread]
    rw [this]
    rfl
  have e1 : ((p.logprobArray like x0).1.logprobArray like b).2 = .ok (.fin l1) := by
    have := (history hPr hfr p hs hon hc hg [.logprobArray x0] b).1
    rw [show p.runAll like [.logprobArray x0] = (p.logprobArray like x0).1 from rfl] at this
    rw [this, h1]
  set p1 := (p.logprobArray like x0).1 with hp1
  set p2 := (p1.logprobArray like b).1 with hp2
  have hown' : p.ownState.getVaryParams = (p.ownState, .ok x0) := by
    unfold PostState.ownState LikeState.getVaryParams
    simp only [hown, hread]
  have hmin : minimize like (evaluatesThen b) x0 2 p [] = (p2, .ok [(x0, .fin (-l0)), (b, .fin (-l1))]) := by
    have a0 : p.logprobArray like x0 = (p1, .ok (.fin l0)) := Prod.ext rfl e0
    have a1 : p1.logprobArray like b = (p2, .ok (.fin l1)) := Prod.ext rfl e1
    unfold minimize minimize minimize PostState.neglogprobArray
    simp only [evaluatesThen, List.length_nil, if_true, a0, List.nil_append, List.length_singleton, Nat.one_ne_zero, if_false, a1, Fl.minus, List.singleton_append]
  have hb2 : Built p2.st := by
    have : p2 = p.runAll like [.logprobArray x0, .logprobArray b] := rfl
    rw [this]
    exact ((PostSim.refl p hc).runAll hPr hfr hs hon _).built hs
  obtain ⟨st, hd, _⟩ := C02_read_own_row p2.st hb2
  have hrun : maxlikeFitting like (evaluatesThen b) 2 p = ({ p2 with st := st }, .ok [(x0, .fin (-l0)), (b, .fin (-l1))]) := by
    unfold maxlikeFitting
    rw [hown']
    simp only []
    rw [show ({ p with postCache := p.ownState.cache } : PostState) = p from rfl, hmin]
    simp only [hd]
  exact ⟨_, hrun⟩

/-- C69 is false for every posterior and every point that is worse than the starting point: an honest optimiser that evaluates the starting point, then the worse point, and returns the starting point, leaves
the posterior at the worse point. -/
theorem C69_violated (mod : Curve) (hmod : mod.Orbital) (hdict : mod.DictFree) (Ls : List RVLike) (p : PostState) (hL : Likes p.st Ls)
    (hc : p.likeCache = none ∨ p.likeCache = some (freeRows p.st.rows)) (hown : p.postCache = some (freeRows p.st.rows)) (hg : ∀ r ∈ p.priors, r.GammaFree p.st) (x0 b : List ℝ)
    (hx0 : p.likeState.getVaryParams.2 = .ok x0) (l0 l1 : ℝ)
    (h0 : logprob (LikeEval.value (compositeLogprob (Ls.map fun L => L.logprob mod))) p.st p.priors = .ok (.fin l0))
    (h1 : (p.logprobArray (compositeLogprob (Ls.map fun L => L.logprob mod)) b).2 = .ok (.fin l1)) (hlt : l1 < l0) :
    ∃ opt q h, maxlikeFitting (compositeLogprob (Ls.map fun L => L.logprob mod)) opt 2 p = (q, .ok h) ∧ opt.Honest x0 h ∧ opt.result x0 h = x0 ∧ q.likeState.getVaryParams.2 = .ok b ∧
      logprob (LikeEval.value (compositeLogprob (Ls.map fun L => L.logprob mod))) q.st q.priors = .ok (.fin l1) := by
  obtain ⟨q, hrun⟩ := fit_two mod hmod Ls p hL hc hown hg x0 b hx0 l0 l1 h0 h1
  obtain ⟨h5, _, _, w, h6, h7⟩ := C69_last_partial mod hmod hdict Ls p hL hc hg (evaluatesThen b) 2 _ [(x0, .fin (-l0))] b (.fin (-l1)) hrun
  refine ⟨_, _, _, hrun, ⟨.fin (-l0), by simp [evaluatesThen], ?_⟩, rfl, h5, ?_⟩
  · intro y hy
    simp only [List.mem_cons, List.not_mem_nil, or_false] at hy
    rcases hy with rfl | rfl
    · show -l0 ≤ -l0
      exact le_rfl
    · show -l0 ≤ -l1
      linarith
  · rw [h6]
    cases w with
    | fin c =>
      have := Fl.fin.inj h7
      congr 2
      linarith
    | _ => cases h7

/-- The posterior of the example: a trend with a Gaussian prior, an analytic offset and one measurement, where every trend fits equally well. -/
theorem trend_value (drive : Drive) (tb x : ℝ) : ∃ (L : RVLike) (p : PostState), Likes p.st [L] ∧ p.likeCache = none ∧ p.postCache = some (freeRows p.st.rows) ∧
    (∀ r ∈ p.priors, r.GammaFree p.st) ∧ p.likeState.getVaryParams.2 = .ok [x] ∧ AnalyticGamma p.st L.gammaIdx ∧
    logprob (LikeEval.value (compositeLogprob ([L].map fun L => L.logprob fun s t => modelCall drive tb s none t))) p.st p.priors = .ok (.fin (-0.5 * x ^ 2 - 0.5 * Real.log (2 * Real.pi))) ∧
    ∀ y, (p.logprobArray (compositeLogprob ([L].map fun L => L.logprob fun s t => modelCall drive tb s none t)) [y]).2 = .ok (.fin (-0.5 * y ^ 2 - 0.5 * Real.log (2 * Real.pi))) := by
  obtain ⟨s, L, h1, h2, h3, h4, h5, h6, h7⟩ := flatLike [{ t := tb + 1, y := 0, err := 1 }] "_a" [] [] (trendRow' x 0)
  obtain ⟨hb, hon⟩ := h1.built
  have ht : TrendState tb L x 0 s := ⟨hb, hon L (by simp), h3, h4, h5, h2, h7⟩
  obtain ⟨r1, _, _⟩ := RVLike.other_row hb (hon L (by simp)) _ h7
  have hrow : ∀ {x c : ℝ} {s : VState ℝ}, TrendState tb L x c s → readPar s .dvdt = .ok x := by
    intro x c s h
    have h0 : s.rows[0]? = some (trendRow' x c .dvdt) := h.rows _ _ (.inr (.inl rfl)) (by rw [h.built.inv.1.dvdtIdx, h.planets])
    unfold readPar
    rw [h.built.inv.1.dvdtIdx, h.planets]
    simp only [Nat.mul_zero, h0, trendRow']
  have hval : ∀ {x c : ℝ} {s : VState ℝ}, TrendState tb L x c s →
      logprob (LikeEval.value (compositeLogprob ([L].map fun L => L.logprob fun s t => modelCall drive tb s none t))) s [.gaussian .dvdt 0 1] =
        .ok (.fin (-0.5 * x ^ 2 - 0.5 * Real.log (2 * Real.pi))) := by
    intro x c s h
    obtain ⟨s', e1, _⟩ := h.eval drive
    have hps : priorSum s [.gaussian .dvdt 0 1] = .ok (.fin (-0.5 * x ^ 2 - 0.5 * Real.log (2 * Real.pi))) := by
      simp only [priorSum, List.foldlM_cons, List.foldlM_nil, priorStep, Prior.call, hrow h]
      simp [Prior.logpdf1, gaussianLogpdf, bind, Except.bind, pure, Except.pure]
    unfold logprob LikeEval.value
    simp only [hps, Fl.isFinite, if_true, e1]
    simp
  refine ⟨L, ⟨s, none, some (freeRows s.rows), [.gaussian .dvdt 0 1]⟩, h1, rfl, rfl, ?_, ?_, ⟨_, _, (hon L (by simp)).gamma, r1, rfl, rfl⟩, ?_, ?_⟩
  · intro q hq
    simp only [List.mem_singleton] at hq
    subst hq
    exact ⟨by simp [Prior.keys], by simp [Prior.planets], by simp [Prior.keys]⟩
  · have h0 : s.rows[0]? = some (trendRow' x 0 .dvdt) := ht.rows _ _ (.inr (.inl rfl)) (by rw [ht.built.inv.1.dvdtIdx, ht.planets])
    show readVals s.rows (freeRows s.rows) = _
    rw [ht.free]
    simp [readVals, h0, trendRow']
  · exact hval ht
  · intro y
    obtain ⟨w1, w2⟩ := ht.set y
    unfold PostState.logprobArray
    rw [setFast_spec _ (.inl rfl)]
    simp only [ht.free, w1]
    exact hval w2

/-- Non-vacuity of C69: the hypotheses of `C69_violated` hold for that posterior, with the real model of the radial velocities, so its conclusion does; the fit ends at a trend of 1 although 0 is better. -/
example (drive : Drive) (tb : ℝ) : ∃ (L : RVLike) (p : PostState) (opt : Optimiser) (q : PostState) (h : List (List ℝ × Fl)), Likes p.st [L] ∧
    maxlikeFitting (compositeLogprob ([L].map fun L => L.logprob fun s t => modelCall drive tb s none t)) opt 2 p = (q, .ok h) ∧ opt.Honest [0] h ∧ opt.result [0] h = [0] ∧
    q.likeState.getVaryParams.2 = .ok [1] := by
  obtain ⟨L, p, h1, h2, h3, h4, h5, _, h7, h8⟩ := trend_value drive tb 0
  obtain ⟨opt, q, h, a1, a2, a3, a4, _⟩ := C69_violated _ (modelCall_orbital drive tb) (modelCall_dictFree drive tb) [L] p h1 (.inl h2) h3 h4 [0] [1] h5 _ _ h7 (h8 1) (by norm_num; linarith)
  exact ⟨L, p, opt, q, h, h1, a1, a2, a3, a4⟩

/-- Non-vacuity of `C69_last_partial` and `C69_not_lower_partial`: a fit from a trend of 1 that evaluates 1 and then 0; the measured trend, its dictionary entry and `logprob` follow. -/
example (drive : Drive) (tb : ℝ) : ∃ (L : RVLike) (p q : PostState) (opt : Optimiser) (h : List (List ℝ × Fl)), Likes p.st [L] ∧ p.likeState.getVaryParams.2 = .ok [1] ∧
    maxlikeFitting (compositeLogprob ([L].map fun L => L.logprob fun s t => modelCall drive tb s none t)) opt 2 p = (q, .ok h) ∧ q.likeState.getVaryParams.2 = .ok [0] ∧
    ∃ a b, logprob (LikeEval.value (compositeLogprob ([L].map fun L => L.logprob fun s t => modelCall drive tb s none t))) p.st p.priors = .ok (.fin a) ∧
      logprob (LikeEval.value (compositeLogprob ([L].map fun L => L.logprob fun s t => modelCall drive tb s none t))) q.st q.priors = .ok (.fin b) ∧ a ≤ b := by
  obtain ⟨L, p, h1, h2, h3, h4, h5, _, h7, h8⟩ := trend_value drive tb 1
  obtain ⟨q, hq⟩ := fit_two _ (modelCall_orbital drive tb) [L] p h1 (.inl h2) h3 h4 [1] [0] h5 _ _ h7 (h8 0)
  obtain ⟨a1, _⟩ := C69_last_partial _ (modelCall_orbital drive tb) (modelCall_dictFree drive tb) [L] p h1 (.inl h2) h4 _ 2 q [_] [0] _ hq
  exact ⟨L, p, q, _, _, h1, h5, hq, a1,
    C69_not_lower_partial _ (modelCall_orbital drive tb) (modelCall_dictFree drive tb) [L] p h1 (.inl h2) h4 _ 2 q [1] h5 _ [] [0] _ hq (by norm_num)⟩

end Radvel
