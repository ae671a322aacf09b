import Verif.Spec.History
import Verif.Lemmas.RVLikeFrame
import Verif.Lemmas.Posterior

namespace Radvel
open Real

/-! ### priors do not read analytic gammas -/

theorem PName.offset_lt (p : PName) : p.offset < 5 := by cases p <;> decide

theorem readPar_orb_frame {s s' : VState ℝ} (hs : Built s) (h : AgreeOff s s') (p : PName) (n : Nat) (h1 : 1 ≤ n) (h2 : n ≤ s.params.numPlanets) :
    readPar s' (.orb p n) = readPar s (.orb p n) := by
  apply readPar_frame h
  intro i hi
  rw [hs.inv.1.orbIdx p n h1 h2] at hi
  cases hi
  apply not_analytic_orbital hs
  have := p.offset_lt
  omega

theorem eccOf_frame {s s' : VState ℝ} (hs : Built s) (h : AgreeOff s s') (n : Nat) (h1 : 1 ≤ n) (h2 : n ≤ s.params.numPlanets) : eccOf s' n = eccOf s n := by
  unfold eccOf
  simp only [h.params, readPar_orb_frame hs h _ n h1 h2]

theorem eccLoop_frame {s s' : VState ℝ} (hs : Built s) (h : AgreeOff s s') (fin : Bool) (pairs : List (Nat × ℝ))
    (hp : ∀ q ∈ pairs, 1 ≤ q.1 ∧ q.1 ≤ s.params.numPlanets) : eccLoop s' fin pairs = eccLoop s fin pairs := by
  induction pairs with
  | nil => rfl
  | cons q t ih =>
    obtain ⟨n, lim⟩ := q
    have := hp (n, lim) (by simp)
    unfold eccLoop
    rw [eccOf_frame hs h n this.1 this.2, ih (fun q hq => hp q (List.mem_cons_of_mem _ hq))]

theorem posKLoop_frame {s s' : VState ℝ} (hs : Built s) (h : AgreeOff s s') (fin : Bool) (ns : List Nat)
    (hp : ∀ n ∈ ns, 1 ≤ n ∧ n ≤ s.params.numPlanets) : posKLoop s' fin ns = posKLoop s fin ns := by
  induction ns with
  | nil => rfl
  | cons n t ih =>
    have := hp n (by simp)
    unfold posKLoop ampOf
    rw [readPar_orb_frame hs h _ n this.1 this.2, readPar_orb_frame hs h _ n this.1 this.2, ih (fun q hq => hp q (List.mem_cons_of_mem _ hq))]

theorem secEclipse_frame {s s' : VState ℝ} (hs : Built s) (h : AgreeOff s s') (n : Nat) (ts err : ℝ) (h1 : 1 ≤ n) (h2 : n ≤ s.params.numPlanets) :
    secEclipseCall n ts err s' = secEclipseCall n ts err s := by
  unfold secEclipseCall tToPhaseVector
  rw [h.params]
  rcases vToSynth_frame s.params.basis s.params.numPlanets s.rows s'.rows h.flags.1
    (fun a ha => h.rows a (not_analytic_orbital hs (by omega))) with ⟨e, a1, a2⟩ | ⟨q1, q2, a1, a2, a3⟩
  · rw [a1, a2]
  · rw [a1, a2]
    have hr : ∀ j, j < 5 → synthRow q2 n j = synthRow q1 n j := by
      intro j hj
      unfold synthRow
      rw [a3 _ (by omega)]
    simp only [bind, Except.bind, hr 0 (by omega), hr 1 (by omega), hr 2 (by omega), hr 3 (by omega)]

theorem prior_frame {s s' : VState ℝ} (hs : Built s) (h : AgreeOff s s') (fin : Option Bool) (p : Prior) (hp : p.GammaFree s) :
    p.call s' fin = p.call s fin := by
  have hk : ∀ k ∈ p.keys, readPar s' k = readPar s k := by
    intro k hk
    apply readPar_frame h
    intro i hi
    by_cases hg : ∃ x, k = .inst .gamma x
    · obtain ⟨x, rfl⟩ := hg
      exact hp.gamma x i hk hi
    · exact not_analytic hs (hp.known k hk) hi (fun x hx => hg ⟨x, hx⟩)
  unfold Prior.call
  split
  · rfl
  · cases p with
    | ecc pairs =>
      simp only [eccCall]
      rw [eccLoop_frame hs h _ pairs (fun q hq => hp.planets q.1 (List.mem_map_of_mem hq))]
    | posK n => exact posKLoop_frame hs h _ _ hp.planets
    | secEclipse n ts err =>
      obtain ⟨a, b⟩ := hp.planets n (by simp [Prior.planets])
      exact secEclipse_frame hs h n ts err a b
    | numerical ks f inv => simp only; rw [readPars_congr ks hk]
    | user ks f inv => simp only; rw [readPars_congr ks hk]
    | gaussian k _ _ => simp only; rw [hk k (by simp [Prior.keys])]
    | hardBounds k _ _ => simp only; rw [hk k (by simp [Prior.keys])]
    | jeffreys k _ _ => simp only; rw [hk k (by simp [Prior.keys])]
    | modJeffreys k _ _ _ => simp only; rw [hk k (by simp [Prior.keys])]
    | baseline k _ _ => simp only; rw [hk k (by simp [Prior.keys])]

theorem priorSum_frame {s s' : VState ℝ} (hs : Built s) (h : AgreeOff s s') (ps : List Prior) (hp : ∀ p ∈ ps, p.GammaFree s) :
    priorSum s' ps = priorSum s ps := by
  unfold priorSum
  generalize (0 : Fl) = acc
  induction ps generalizing acc with
  | nil => rfl
  | cons p t ih =>
    simp only [List.foldlM_cons, priorStep, prior_frame hs h none p (hp p (by simp))]
    cases p.call s none with
    | error e => rfl
    | ok v => exact ih (fun q hq => hp q (List.mem_cons_of_mem _ hq)) _

theorem extra_frame {s s' : VState ℝ} (hs : Built s) (h : AgreeOff s s') (ps : List Prior) (hp : ∀ p ∈ ps, p.GammaFree s) :
    extraLikelihood s' ps = extraLikelihood s ps := by
  unfold extraLikelihood
  generalize (0 : Fl) = acc
  induction ps generalizing acc with
  | nil => rfl
  | cons p t ih =>
    have hstep : extraStep s' acc p = extraStep s acc p := by
      unfold extraStep
      rw [prior_frame hs h (some true) p (hp p (by simp))]
    simp only [List.foldlM_cons, hstep]
    cases extraStep s acc p with
    | error e => rfl
    | ok v => exact ih (fun q hq => hp q (List.mem_cons_of_mem _ hq)) _

/-! ### likelihoods -/

/-- The likelihood neither depends on the stored values of analytic gammas nor writes anything else, in all states with `P`. -/
def LikeEval.Framed (P : VState ℝ → Prop) (like : LikeEval) : Prop :=
  ∀ s s', Built s → P s → AgreeOff s s' →
    (∃ e, like s = .error e ∧ like s' = .error e) ∨
    (∃ s1 s1' v, like s = .ok (s1, v) ∧ like s' = .ok (s1', v) ∧ AgreeOff s s1 ∧ AgreeOff s s1')

theorem composite_framed (mod : Curve) (hmod : mod.Orbital) (Ls : List RVLike) :
    LikeEval.Framed (fun s => ∀ L ∈ Ls, L.On s) (compositeLogprob (Ls.map (fun L => L.logprob mod))) := by
  intro s s' hs hL h
  have key : ∀ (Ms : List RVLike), (∀ L ∈ Ms, L.On s) → ∀ (a b : VState ℝ) (acc : Fl), AgreeOff s a → AgreeOff s b →
      (∃ e, (Ms.map (fun L => L.logprob mod)).foldlM compositeStep (a, acc) = .error e ∧ (Ms.map (fun L => L.logprob mod)).foldlM compositeStep (b, acc) = .error e) ∨
      (∃ s1 s1' v, (Ms.map (fun L => L.logprob mod)).foldlM compositeStep (a, acc) = .ok (s1, v) ∧
        (Ms.map (fun L => L.logprob mod)).foldlM compositeStep (b, acc) = .ok (s1', v) ∧ AgreeOff s s1 ∧ AgreeOff s s1') := by
    intro Ms
    induction Ms with
    | nil => intro _ a b acc ha hb; exact .inr ⟨a, b, acc, rfl, rfl, ha, hb⟩
    | cons L t ih =>
      intro hL a b acc ha hb
      simp only [List.map_cons, List.foldlM_cons, compositeStep]
      rcases logprob_frame hmod hs (hL L (by simp)) ha with ⟨e, e1, e2, _⟩ | ⟨a0, a1, v, _, e1, e2, _, _, _, e3⟩
      · rcases logprob_frame hmod hs (hL L (by simp)) hb with ⟨e', f1, f2, _⟩ | ⟨b0, b1, w, _, f1, f2, _, _, _, f3⟩
        · rw [e1] at f1; cases f1
          rw [e2, f2]
          exact .inl ⟨e, rfl, rfl⟩
        · rw [e1] at f1; cases f1
      · rcases logprob_frame hmod hs (hL L (by simp)) hb with ⟨e', f1, f2, _⟩ | ⟨b0, b1, w, _, f1, f2, _, _, _, f3⟩
        · rw [e1] at f1; cases f1
        · rw [e1] at f1; cases f1
          rw [e2, f2]
          exact ih (fun M hM => hL M (List.mem_cons_of_mem _ hM)) a1 b1 (acc + v) e3 f3
  exact key Ls hL s s' 0 (AgreeOff.refl s) h

/-! ### histories -/

/-- Two posteriors that can differ only in free rows and analytic gammas. -/
structure PostSim (p p' : PostState) : Prop where
  priors : p'.priors = p.priors
  params : p'.st.params = p.st.params
  indices : p'.st.indices = p.st.indices
  names : p'.st.names = p.st.names
  flags : SameFlags p.st.rows p'.st.rows
  rows : ∀ i : Nat, ¬ AnalyticGamma p.st i → i ∉ freeRows p.st.rows → p'.st.rows[i]? = p.st.rows[i]?
  cache : p'.likeCache = none ∨ p'.likeCache = some (freeRows p'.st.rows)

theorem setFast_spec (p : PostState) (hc : p.likeCache = none ∨ p.likeCache = some (freeRows p.st.rows)) (xs : List ℝ) :
    p.setFast xs = ({ p with st := { p.st with rows := (writeVals (freeRows p.st.rows) xs p.st.rows).1 }, likeCache := some (freeRows p.st.rows) },
      (writeVals (freeRows p.st.rows) xs p.st.rows).2) := by
  have href : p.likeState.refreshFor xs.length = { p.likeState with cache := some (freeRows p.st.rows) } := by
    unfold LikeState.refreshFor PostState.likeState
    rcases hc with hc | hc
    · simp [hc, LikeState.listVaryParams]
    · simp only [hc]; split <;> simp [LikeState.listVaryParams]
  unfold PostState.setFast LikeState.setVaryParams
  simp only [href, Option.getD_some]
  have : p.likeState.st = p.st := rfl
  rw [this]
  rcases hw : writeVals (freeRows p.st.rows) xs p.st.rows with ⟨rows, _ | e⟩ <;> rfl

theorem analytic_congr {s s' : VState ℝ} (hi : s'.indices = s.indices) (hf : SameFlags s.rows s'.rows) (i : Nat) : AnalyticGamma s' i ↔ AnalyticGamma s i := by
  constructor
  · rintro ⟨x, r, h1, h2, h3, h4⟩
    obtain ⟨r', a1, a2, a3, a4⟩ := hf.symm.2 i r h2
    exact ⟨x, r', hi ▸ h1, a1, by rw [a4]; exact h3, by rw [a2]; exact h4⟩
  · rintro ⟨x, r, h1, h2, h3, h4⟩
    obtain ⟨r', a1, a2, a3, a4⟩ := hf.2 i r h2
    exact ⟨x, r', by rw [hi]; exact h1, a1, by rw [a4]; exact h3, by rw [a2]; exact h4⟩

theorem PostSim.set {p p' : PostState} (h : PostSim p p') (xs : List ℝ) : PostSim p (p'.setFast xs).1 := by
  rw [setFast_spec p' h.cache]
  obtain ⟨w1, w2⟩ := writeVals_flags (freeRows p'.st.rows) xs p'.st.rows
  have hfr : freeRows p'.st.rows = freeRows p.st.rows := h.flags.freeRows
  refine ⟨h.priors, h.params, h.indices, h.names, h.flags.trans w1, ?_, .inr ?_⟩
  · intro i hi hf
    simp only
    rw [w2 i (by rw [hfr]; exact hf)]
    exact h.rows i hi hf
  · simp only [w1.freeRows]

theorem PostSim.agree {p p' : PostState} {s : VState ℝ} (h : PostSim p p') (ha : AgreeOff p'.st s) : PostSim p { p' with st := s } := by
  refine ⟨h.priors, ha.params.trans h.params, ha.indices.trans h.indices, ha.names.trans h.names, h.flags.trans ha.flags, ?_, ?_⟩
  · intro i hi hf
    simp only
    rw [ha.rows i (fun hc => hi ((analytic_congr h.indices h.flags i).1 hc))]
    exact h.rows i hi hf
  · rcases h.cache with hc | hc
    · exact .inl hc
    · right; simp only [ha.flags.freeRows, hc]

theorem stateAfter_agree {P : VState ℝ → Prop} {like : LikeEval} (hl : like.Framed P) {s : VState ℝ} (hs : Built s) (hP : P s) (r : Except PyErr Fl) :
    AgreeOff s (stateAfter like s r) := by
  unfold stateAfter
  split
  · split
    · unfold LikeEval.after
      rcases hl s s hs hP (AgreeOff.refl s) with ⟨e, h1, _⟩ | ⟨s1, s1', v, h1, _, h3, _⟩
      · rw [h1]; exact AgreeOff.refl s
      · rw [h1]; exact h3
    · exact AgreeOff.refl s
  · exact AgreeOff.refl s

/-- `P` and reachability do not depend on the values in the rows. -/
def RowFree (P : VState ℝ → Prop) : Prop := ∀ s s' : VState ℝ, P s → s'.params = s.params → s'.indices = s.indices → P s'

theorem PostSim.built {p p' : PostState} (h : PostSim p p') (hs : Built p.st) : Built p'.st := by
  have : p'.st = { p.st with rows := p'.st.rows } := by
    cases hst : p'.st with
    | mk params indices rows names =>
      have a := h.params; have b := h.indices; have c := h.names
      rw [hst] at a b c
      simp only at a b c
      subst a b c
      rfl
  rw [this]
  exact .write _ _ hs h.flags.1

theorem PostSim.run {P : VState ℝ → Prop} (hPr : RowFree P) {like : LikeEval} (hl : like.Framed P) {p p' : PostState} (h : PostSim p p') (hs : Built p.st) (hP : P p.st)
    (c : PostCall) : PostSim p (c.run like p') := by
  cases c with
  | logprobArray xs =>
    have h' := h.set xs
    simp only [PostCall.run, PostState.logprobArray]
    rcases hq : p'.setFast xs with ⟨q, _ | e⟩
    · rw [hq] at h'
      simp only at h' ⊢
      exact h'.agree (stateAfter_agree hl (h'.built hs) (hPr _ _ hP h'.params h'.indices) _)
    · rw [hq] at h'; exact h'
  | likelihoodNsArray xs =>
    have h' := h.set xs
    simp only [PostCall.run, PostState.likelihoodNsArray]
    rcases hq : p'.setFast xs with ⟨q, _ | e⟩
    · rw [hq] at h'
      simp only at h' ⊢
      exact h'.agree (stateAfter_agree hl (h'.built hs) (hPr _ _ hP h'.params h'.indices) _)
    · rw [hq] at h'; exact h'

theorem PostSim.refl (p : PostState) (hc : p.likeCache = none ∨ p.likeCache = some (freeRows p.st.rows)) : PostSim p p :=
  ⟨rfl, rfl, rfl, rfl, SameFlags.refl _, fun _ _ _ => rfl, hc⟩

theorem PostSim.runAll {P : VState ℝ → Prop} (hPr : RowFree P) {like : LikeEval} (hl : like.Framed P) {p p' : PostState} (h : PostSim p p') (hs : Built p.st)
    (hP : P p.st) (cs : List PostCall) : PostSim p (p'.runAll like cs) := by
  unfold PostState.runAll
  induction cs generalizing p' with
  | nil => exact h
  | cons c t ih => exact ih (h.run hPr hl hs hP c)

/-- After setting the same array the two states agree up to analytic gammas, or the same exception was raised. -/
theorem PostSim.setSame {p p' : PostState} (h : PostSim p p') (hc : p.likeCache = none ∨ p.likeCache = some (freeRows p.st.rows)) (xs : List ℝ) :
    (∃ e, (p.setFast xs).2 = some e ∧ (p'.setFast xs).2 = some e) ∨
    ((p.setFast xs).2 = none ∧ (p'.setFast xs).2 = none ∧ AgreeOff (p.setFast xs).1.st (p'.setFast xs).1.st) := by
  rw [setFast_spec p hc, setFast_spec p' h.cache]
  have hfr : freeRows p'.st.rows = freeRows p.st.rows := h.flags.freeRows
  rw [hfr]
  simp only
  by_cases hl : xs.length = (freeRows p.st.rows).length
  · obtain ⟨a1, a2⟩ := writeVals_ok (freeRows p.st.rows) xs p.st.rows (nodup_freeRows _) (freeRows_lt _) hl
    obtain ⟨b1, b2⟩ := writeVals_ok (freeRows p.st.rows) xs p'.st.rows (nodup_freeRows _) (by rw [← hfr]; exact freeRows_lt _) hl
    obtain ⟨c1, c2⟩ := writeVals_flags (freeRows p.st.rows) xs p.st.rows
    obtain ⟨d1, d2⟩ := writeVals_flags (freeRows p.st.rows) xs p'.st.rows
    refine .inr ⟨a1, b1, ⟨h.params, h.indices, h.names, c1.symm.trans (h.flags.trans d1), ?_⟩⟩
    intro i hi
    simp only
    by_cases hf : i ∈ freeRows p.st.rows
    · obtain ⟨j, hj⟩ := List.getElem?_of_mem hf
      obtain ⟨r, x, e1, e2, e3⟩ := a2 j i hj
      obtain ⟨r', x', f1, f2, f3⟩ := b2 j i hj
      rw [e2] at f2; cases f2
      obtain ⟨r'', g1, g2, g3, g4⟩ := h.flags.2 i r e1
      rw [f1] at g1; cases g1
      rw [e3, f3]
      cases r; cases r'
      simp_all
    · rw [c2 i hf, d2 i hf]
      refine h.rows i (fun hc => hi ?_) hf
      exact (analytic_congr (s := p.st) (s' := { p.st with rows := (writeVals (freeRows p.st.rows) xs p.st.rows).1 }) rfl c1 i).2 hc
  · left
    have key : ∀ (is : List Nat) (xs : List ℝ) (r1 r2 : List (Row ℝ)), xs.length ≠ is.length → (∀ i ∈ is, i < r1.length) → r2.length = r1.length →
        ∃ e, (writeVals is xs r1).2 = some e ∧ (writeVals is xs r2).2 = some e := by
      intro is
      induction is with
      | nil =>
        intro xs r1 r2 hl _ _
        cases xs with
        | nil => simp at hl
        | cons x xs => exact ⟨_, rfl, rfl⟩
      | cons i t ih =>
        intro xs r1 r2 hl hb he
        cases xs with
        | nil => exact ⟨_, rfl, rfl⟩
        | cons x xs =>
          have hi := hb i (by simp)
          simp only [writeVals, List.getElem?_eq_getElem hi, List.getElem?_eq_getElem (he ▸ hi)]
          exact ih xs _ _ (by simpa using hl) (fun j hj => by simpa using hb j (List.mem_cons_of_mem _ hj)) (by simp [he])
    exact key _ xs _ _ hl (freeRows_lt _) h.flags.1

theorem GammaFree.congr {s s' : VState ℝ} (hp : s'.params = s.params) (hi : s'.indices = s.indices) (hf : SameFlags s.rows s'.rows) {q : Prior} (h : q.GammaFree s) :
    q.GammaFree s' :=
  ⟨by rw [hp]; exact h.known, by rw [hp]; exact h.planets, fun x i h1 h2 hc => h.gamma x i h1 (hi ▸ h2) ((analytic_congr hi hf i).1 hc)⟩

theorem like_value_frame {P : VState ℝ → Prop} {like : LikeEval} (hl : like.Framed P) {s s' : VState ℝ} (hs : Built s) (hP : P s) (h : AgreeOff s s') :
    like.value s' = like.value s := by
  unfold LikeEval.value
  rcases hl s s' hs hP h with ⟨e, h1, h2⟩ | ⟨s1, s1', v, h1, h2, _⟩ <;> rw [h1, h2]

theorem history {P : VState ℝ → Prop} (hPr : RowFree P) {like : LikeEval} (hl : like.Framed P) (p : PostState) (hs : Built p.st) (hP : P p.st)
    (hc : p.likeCache = none ∨ p.likeCache = some (freeRows p.st.rows)) (hg : ∀ q ∈ p.priors, q.GammaFree p.st) (cs : List PostCall) (xs : List ℝ) :
    ((p.runAll like cs).logprobArray like xs).2 = (p.logprobArray like xs).2 ∧
    ((p.runAll like cs).likelihoodNsArray like xs).2 = (p.likelihoodNsArray like xs).2 := by
  have hsim := (PostSim.refl p hc).runAll hPr hl hs hP cs
  set p' := p.runAll like cs
  unfold PostState.logprobArray PostState.likelihoodNsArray
  have h0 := (PostSim.refl p hc).set xs
  have h1 := hsim.set xs
  rcases hsim.setSame hc xs with ⟨e, a1, a2⟩ | ⟨a1, a2, a3⟩
  · rcases hq : p.setFast xs with ⟨q, o⟩
    rcases hq' : p'.setFast xs with ⟨q', o'⟩
    rw [hq] at a1; rw [hq'] at a2
    simp only at a1 a2
    subst a1 a2
    exact ⟨rfl, rfl⟩
  · rcases hq : p.setFast xs with ⟨q, o⟩
    rcases hq' : p'.setFast xs with ⟨q', o'⟩
    rw [hq] at a1 a3 h0; rw [hq'] at a2 a3 h1
    simp only at a1 a2 a3 h0 h1
    subst a1 a2
    have hb : Built q.st := h0.built hs
    have hg' : ∀ r ∈ q.priors, r.GammaFree q.st := by
      rw [h0.priors]
      exact fun r hr => GammaFree.congr h0.params h0.indices h0.flags (hg r hr)
    have hPq : P q.st := hPr _ _ hP h0.params h0.indices
    simp only [logprob, likelihoodNs, h1.priors, ← h0.priors, priorSum_frame hb a3 q.priors hg', extra_frame hb a3 q.priors hg',
      like_value_frame hl hb hPq a3]
    exact ⟨trivial, trivial⟩

end Radvel
