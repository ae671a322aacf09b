import Verif.Lemmas.History
import Verif.Lemmas.RVLikeData
import Verif.Props.RVLike

/-!
# C34: evaluating the posterior leaves no trace
-/

namespace Radvel
open Real

/-- C34 (missing: priors that name an analytically marginalised gamma, where it is false; Gaussian-process members): after any sequence of evaluations of `logprob_array`
and `likelihood_ns_array`, with arrays of any length and also if some of them raised exceptions, `logprob_array(x)` and `likelihood_ns_array(x)` return what they would
have returned at the start. -/
theorem C34_history_partial (mod : Curve) (hmod : mod.Orbital) (Ls : List RVLike) (p : PostState) (hL : Likes p.st Ls)
    (hc : p.likeCache = none ∨ p.likeCache = some (freeRows p.st.rows)) (hg : ∀ q ∈ p.priors, q.GammaFree p.st) (calls : List PostCall) (xs : List ℝ) :
    let like := compositeLogprob (Ls.map (fun L => L.logprob mod))
    ((p.runAll like calls).logprobArray like xs).2 = (p.logprobArray like xs).2 ∧
    ((p.runAll like calls).likelihoodNsArray like xs).2 = (p.likelihoodNsArray like xs).2 := by
  obtain ⟨hs, hon⟩ := hL.built
  exact history (P := fun s => ∀ L ∈ Ls, L.On s)
    (fun s s' h _ hi L hL => ⟨by rw [hi]; exact (h L hL).gamma, by rw [hi]; exact (h L hL).jit, by rw [hi]; exact (h L hL).dec⟩)
    (composite_framed mod hmod Ls) p hs hon hc hg calls xs

/-- The rows of the witness: the trend varies, gamma is linear and fixed. -/
def trendRow : Key → Row ℝ
  | .inst .gamma _ => { value := 0, vary := false, scale := 0, linear := true }
  | .dvdt => { value := 0, vary := true, scale := 0, linear := false }
  | _ => { value := 0, vary := false, scale := 0, linear := false }

/-- Non-vacuity of C34: a posterior with an analytic gamma and a prior on the free trend. -/
example : ∃ (p : PostState) (L : RVLike), Likes p.st [L] ∧ AnalyticGamma p.st L.gammaIdx ∧ p.likeCache = none ∧ p.priors = [.gaussian .dvdt 0 1] ∧
    ∀ q ∈ p.priors, q.GammaFree p.st := by
  obtain ⟨s, L, h1, h2, h3, h4, h5, h6, h7⟩ := flatLike witnessObs "_a" [] [] trendRow
  obtain ⟨hb, hon⟩ := h1.built
  have hL := hon L (by simp)
  obtain ⟨r1, r2, r3⟩ := RVLike.other_row hb hL trendRow h7
  refine ⟨⟨s, none, none, [.gaussian .dvdt 0 1]⟩, L, h1, ⟨_, _, hL.gamma, r1, rfl, rfl⟩, rfl, rfl, ?_⟩
  intro q hq
  simp only [List.mem_singleton] at hq
  subst hq
  exact ⟨by simp [Prior.keys], by simp [Prior.planets], by simp [Prior.keys]⟩

/-- The rows of the states the witness below passes through: trend `x`, stored gamma `c`. -/
def trendRow' (x c : ℝ) : Key → Row ℝ
  | .inst .gamma r => { value := if r = "_a" then c else 0, vary := false, scale := 0, linear := true }
  | .dvdt => { value := x, vary := true, scale := 0, linear := false }
  | _ => { value := 0, vary := false, scale := 0, linear := false }

/-- States of the witness. -/
structure TrendState (tb : ℝ) (L : RVLike) (x c : ℝ) (s : VState ℝ) : Prop where
  built : Built s
  on : L.On s
  suffix : L.suffix = "_a"
  obs : L.obs = [{ t := tb + 1, y := 0, err := 1 }]
  dec : L.decParams = []
  planets : s.params.numPlanets = 0
  rows : ∀ k i, (k ∈ s.params.items.keys ∨ k = .dvdt ∨ k = .curv) → s.indices.get? k = some i → s.rows[i]? = some (trendRow' x c k)

theorem TrendState.free {tb : ℝ} {L : RVLike} {x c : ℝ} {s : VState ℝ} (h : TrendState tb L x c s) : freeRows s.rows = [0] := by
  have h0 : s.rows[0]? = some (trendRow' x c .dvdt) := h.rows _ _ (.inr (.inl rfl)) (by rw [h.built.inv.1.dvdtIdx, h.planets])
  have hmem : ∀ i, i ∈ freeRows s.rows ↔ i = 0 := by
    intro i
    rw [mem_freeRows]
    constructor
    · rintro ⟨r, h1, h2⟩
      have hlt : i < s.names.length := by rw [h.built.namesOk.len]; exact (List.getElem?_eq_some_iff.1 h1).1
      obtain ⟨hk, hi⟩ := h.built.namesOk.bwd i _ (List.getElem?_eq_getElem hlt)
      have hr := h.rows _ _ hk hi
      rw [h1] at hr; cases hr
      generalize s.names[i] = k at *
      have hkd : k = .dvdt := by
        unfold trendRow' at h2
        split at h2 <;> simp at h2
        rfl
      subst hkd
      rw [h.built.inv.1.dvdtIdx, h.planets] at hi
      simpa using hi.symm
    · rintro rfl
      exact ⟨_, h0, rfl⟩
  have hn := nodup_freeRows s.rows
  generalize freeRows s.rows = l at *
  match l with
  | [] => exact absurd ((hmem 0).2 rfl) (by simp)
  | [a] => rw [(hmem a).1 (by simp)]
  | a :: b :: t =>
    have ha := (hmem a).1 (by simp)
    have hb := (hmem b).1 (by simp)
    subst ha; subst hb
    simp at hn

theorem TrendState.set {tb : ℝ} {L : RVLike} {x c : ℝ} {s : VState ℝ} (h : TrendState tb L x c s) (y : ℝ) :
    (writeVals [0] [y] s.rows).2 = none ∧ TrendState tb L y c { s with rows := (writeVals [0] [y] s.rows).1 } := by
  have h0 : s.rows[0]? = some (trendRow' x c .dvdt) := h.rows _ _ (.inr (.inl rfl)) (by rw [h.built.inv.1.dvdtIdx, h.planets])
  have hlt : 0 < s.rows.length := (List.getElem?_eq_some_iff.1 h0).1
  simp only [writeVals, h0]
  refine ⟨trivial, .write _ _ h.built (by simp), ⟨h.on.gamma, h.on.jit, h.on.dec⟩, h.suffix, h.obs, h.dec, h.planets, ?_⟩
  intro k i hk hi
  simp only at hk hi ⊢
  by_cases hd : k = .dvdt
  · subst hd
    rw [h.built.inv.1.dvdtIdx, h.planets] at hi
    simp only [Nat.mul_zero, Option.some.injEq] at hi
    subst hi
    simp [hlt, trendRow']
  · have hi0 : (0 : Nat) ≠ i := by
      rintro rfl
      apply hd
      exact h.built.inv.1.inj hk (.inr (.inl rfl)) hi (by rw [h.built.inv.1.dvdtIdx, h.planets])
    rw [List.getElem?_set_ne hi0, h.rows k i hk hi]
    cases k with
    | inst g r => cases g <;> rfl
    | dvdt => simp at hd
    | _ => rfl

theorem TrendState.eval {tb : ℝ} {L : RVLike} {x c : ℝ} {s : VState ℝ} (drive : Drive) (h : TrendState tb L x c s) :
    ∃ s', compositeLogprob ([L].map (fun L => L.logprob (fun s t => modelCall drive tb s none t))) s = .ok (s', .fin 0) ∧ TrendState tb L x (-x) s' := by
  obtain ⟨r1, r2, r3⟩ := RVLike.other_row h.built h.on _ h.rows
  set mod : Curve := fun s t => modelCall drive tb s none t with hmod
  have hm : ModelIs mod L s (fun t => x * (t - tb)) := by
    intro o _
    show modelCall drive tb s none o.t = _
    rw [flat_model drive tb o.t s h.built h.planets _ h.rows]
    simp [trendRow']
  have hlp := logprob_eq mod L s (fun t => some (x * (t - tb))) hm _ _ r1 r2
  have hu : gammaUsed L (fun t => some (x * (t - tb))) (trendRow' x c (.inst .gamma L.suffix)) (trendRow' x c (.inst .jit L.suffix)) = -x := by
    simp [gammaUsed, trendRow', Row.analytic, weightedOffset, h.obs, Obs.var]
  have hv : likeValue L (fun t => some (x * (t - tb))) (trendRow' x c (.inst .gamma L.suffix)) (trendRow' x c (.inst .jit L.suffix)) (fun _ => 0) = .fin 0 := by
    unfold likeValue
    simp only [hu]
    simp [h.obs, trendRow', Row.analytic, Obs.var, loglikeJitter, marginalTerm, Fl.log, Real.pi_pos]
  have hdec : L.decFun (gammaWritten L (fun t => some (x * (t - tb))) s (trendRow' x c (.inst .gamma L.suffix)) (trendRow' x c (.inst .jit L.suffix))) = .ok (fun _ => 0) :=
    decFun_nil h.dec _
  rw [hdec] at hlp
  simp only [hv] at hlp
  refine ⟨gammaWritten L (fun t => some (x * (t - tb))) s (trendRow' x c (.inst .gamma L.suffix)) (trendRow' x c (.inst .jit L.suffix)), ?_, ?_⟩
  · simp only [compositeLogprob, List.map_cons, List.map_nil, List.foldlM_cons, List.foldlM_nil, compositeStep, hlp, bind, Except.bind, pure, Except.pure]
    simp
  · have hag := gammaWritten_agree h.on (fun t => some (x * (t - tb))) (j := trendRow' x c (.inst .jit L.suffix)) r1
    have hw : gammaWritten L (fun t => some (x * (t - tb))) s (trendRow' x c (.inst .gamma L.suffix)) (trendRow' x c (.inst .jit L.suffix))
        = { s with rows := s.rows.set L.gammaIdx { trendRow' x c (.inst .gamma L.suffix) with value := -x } } := by
      unfold gammaWritten
      rw [hu]
      rfl
    rw [hw]
    refine ⟨.write _ _ h.built (by simp), ⟨h.on.gamma, h.on.jit, h.on.dec⟩, h.suffix, h.obs, h.dec, h.planets, ?_⟩
    intro k i hk hi
    simp only at hk hi ⊢
    have hlt : L.gammaIdx < s.rows.length := (List.getElem?_eq_some_iff.1 r1).1
    have hgk : Key.inst .gamma L.suffix ∈ s.params.items.keys := (h.built.inv.1.ext _ _ rfl rfl h.on.gamma).1
    by_cases hd : k = .inst .gamma L.suffix
    · subst hd
      rw [h.on.gamma] at hi; cases hi
      simp [hlt, trendRow', h.suffix]
    · have hi0 : L.gammaIdx ≠ i := by
        rintro rfl
        exact hd (h.built.inv.1.inj hk (.inl hgk) hi h.on.gamma)
      rw [List.getElem?_set_ne hi0, h.rows k i hk hi]
      cases k with
      | inst g r =>
        cases g with
        | gamma =>
          have : r ≠ "_a" := by rintro rfl; exact hd (by rw [h.suffix])
          simp [trendRow', this]
        | _ => rfl
      | _ => rfl

/-- C34 in full is false: with a prior on an analytically marginalised gamma, `logprob_array([0])` depends on what was evaluated before. -/
theorem C34_gamma_prior_violated (drive : Drive) (tb : ℝ) :
    ∃ (L : RVLike) (p : PostState), Likes p.st [L] ∧ p.likeCache = none ∧ p.priors = [.gaussian (.inst .gamma L.suffix) 0 1] ∧
      let like := compositeLogprob ([L].map (fun L => L.logprob (fun s t => modelCall drive tb s none t)))
      ((p.runAll like [.logprobArray [1]]).logprobArray like [0]).2 ≠ (p.logprobArray like [0]).2 := by
  obtain ⟨s, L, h1, h2, h3, h4, h5, h6, h7⟩ := flatLike [{ t := tb + 1, y := 0, err := 1 }] "_a" [] [] (trendRow' 0 0)
  obtain ⟨hb, hon⟩ := h1.built
  have ht : TrendState tb L 0 0 s := ⟨hb, hon L (by simp), h3, h4, h5, h2, h7⟩
  refine ⟨L, ⟨s, none, none, [.gaussian (.inst .gamma L.suffix) 0 1]⟩, h1, rfl, rfl, ?_⟩
  intro like
  have key : ∀ (q : PostState) (x c y : ℝ), TrendState tb L x c q.st → (q.likeCache = none ∨ q.likeCache = some (freeRows q.st.rows)) →
      q.priors = [.gaussian (.inst .gamma L.suffix) 0 1] →
      ∃ q', q.logprobArray like [y] = (q', .ok (.fin (-0.5 * c ^ 2 - 0.5 * log (2 * π)))) ∧ TrendState tb L y (-y) q'.st ∧
        q'.likeCache = some (freeRows q'.st.rows) ∧ q'.priors = q.priors := by
    intro q x c y hq hc hp
    obtain ⟨w1, w2⟩ := hq.set y
    obtain ⟨s', e1, e2⟩ := w2.eval drive
    have hsf := setFast_spec q hc [y]
    rw [hq.free, w1] at hsf
    obtain ⟨r1, _, _⟩ := RVLike.other_row w2.built w2.on _ w2.rows
    have hps : priorSum { q.st with rows := (writeVals [0] [y] q.st.rows).1 } q.priors = .ok (.fin (-0.5 * c ^ 2 - 0.5 * log (2 * π))) := by
      rw [hp]
      simp only [priorSum, List.foldlM_cons, List.foldlM_nil, priorStep, Prior.call, readPar]
      rw [w2.on.gamma]
      simp only
      rw [show ({ q.st with rows := (writeVals [0] [y] q.st.rows).1 } : VState ℝ).rows = (writeVals [0] [y] q.st.rows).1 from rfl] at r1
      rw [r1]
      simp [Prior.logpdf1, gaussianLogpdf, trendRow', w2.suffix, bind, Except.bind, pure, Except.pure]
    refine ⟨{ q with st := s', likeCache := some [0] }, ?_, e2, ?_, rfl⟩
    · unfold PostState.logprobArray
      rw [hsf]
      simp only [hps, stateAfter, LikeEval.after, logprob, LikeEval.value, Fl.isFinite, if_true]
      have e1' : like { q.st with rows := (writeVals [0] [y] q.st.rows).1 } = .ok (s', .fin 0) := e1
      simp only [e1']
      simp
    · simp only; rw [e2.free]
  obtain ⟨q1, a1, a2, a3, a4⟩ := key ⟨s, none, none, [.gaussian (.inst .gamma L.suffix) 0 1]⟩ 0 0 1 ht (.inl rfl) rfl
  obtain ⟨q2, b1, _⟩ := key q1 1 (-1) 0 a2 (.inr a3) a4
  obtain ⟨q3, c1, _⟩ := key ⟨s, none, none, [.gaussian (.inst .gamma L.suffix) 0 1]⟩ 0 0 0 ht (.inl rfl) rfl
  rw [c1]
  simp only [PostState.runAll, List.foldl_cons, List.foldl_nil, PostCall.run, a1, b1]
  intro hc
  simp only [Except.ok.injEq, Fl.fin.injEq] at hc
  norm_num at hc

end Radvel
