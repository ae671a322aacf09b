import Verif.Model.Load
import Verif.Spec.GPPost
import Verif.Lemmas.MaxLike
import Verif.Lemmas.GPPost

/-! Lemmas for C159: evaluations read the dictionary nowhere. -/

namespace Radvel

/-- Two states that differ at most in the dictionary. -/
structure OffDict (s s' : VState ℝ) : Prop where
  rows : s'.rows = s.rows
  indices : s'.indices = s.indices
  names : s'.names = s.names
  basis : s'.params.basis = s.params.basis
  planets : s'.params.numPlanets = s.params.numPlanets

theorem OffDict.refl (s : VState ℝ) : OffDict s s := ⟨rfl, rfl, rfl, rfl, rfl⟩

theorem OffDict.readPar {s s' : VState ℝ} (h : OffDict s s') : readPar s' = readPar s := by
  funext k
  unfold Radvel.readPar
  rw [h.indices, h.rows]

theorem OffDict.readPars {s s' : VState ℝ} (h : OffDict s s') (ks : List Key) : readPars s' ks = readPars s ks := readPars_congr ks fun k _ => by rw [h.readPar]

theorem OffDict.eccOf {s s' : VState ℝ} (h : OffDict s s') : eccOf s' = eccOf s := by
  funext n
  unfold Radvel.eccOf
  rw [h.basis, h.readPar]

theorem OffDict.eccLoop {s s' : VState ℝ} (h : OffDict s s') (fin : Bool) (l : List (Nat × ℝ)) : eccLoop s' fin l = eccLoop s fin l := by
  induction l with
  | nil => rfl
  | cons q t ih =>
    obtain ⟨n, lim⟩ := q
    unfold Radvel.eccLoop
    rw [ih, h.eccOf]

theorem OffDict.posKLoop {s s' : VState ℝ} (h : OffDict s s') (fin : Bool) (l : List Nat) : posKLoop s' fin l = posKLoop s fin l := by
  induction l with
  | nil => rfl
  | cons n t ih =>
    unfold Radvel.posKLoop
    rw [ih, show ampOf s' n = ampOf s n by unfold ampOf; rw [h.readPar]]

theorem OffDict.call {s s' : VState ℝ} (h : OffDict s s') (p : Prior) (o : Option Bool) : p.call s' o = p.call s o := by
  unfold Prior.call
  split
  · rfl
  · cases p with
    | ecc pairs => simp only [eccCall]; rw [h.eccLoop]
    | posK n => exact h.posKLoop _ _
    | numerical ks f inv => simp only; rw [h.readPars]
    | user ks f inv => simp only; rw [h.readPars]
    | secEclipse n ts err => simp only [secEclipseCall, tToPhaseVector]; rw [h.basis, h.planets, h.rows]
    | _ => simp only; rw [h.readPar]

theorem OffDict.priorSum {s s' : VState ℝ} (h : OffDict s s') (l : List Prior) : priorSum s' l = priorSum s l := by
  unfold Radvel.priorSum
  congr 1
  funext acc p
  unfold priorStep
  rw [h.call]

theorem OffDict.extra {s s' : VState ℝ} (h : OffDict s s') (l : List Prior) : extraLikelihood s' l = extraLikelihood s l := by
  unfold Radvel.extraLikelihood
  congr 1
  funext acc p
  unfold extraStep
  rw [h.call]

/-- Results of evaluations that agree except for the dictionary of the state. -/
def OffDictR {β : Type} (r r' : Except PyErr (VState ℝ × β)) : Prop :=
  match r, r' with
  | .error e, .error e' => e' = e
  | .ok x, .ok x' => OffDict x.1 x'.1 ∧ x'.2 = x.2
  | _, _ => False

theorem OffDict.decorr {s s' : VState ℝ} (h : OffDict s s') (L : RVLike) : L.decorrStep s' = L.decorrStep s := by
  funext res parname
  unfold RVLike.decorrStep RVLike.pars
  simp only [h.readPars]

theorem OffDict.readRow {s s' : VState ℝ} (h : OffDict s s') : readRow s' = readRow s := by
  funext i
  unfold Radvel.readRow
  rw [h.rows]

theorem OffDict.points {mod : Curve} (hmod : mod.DictFree) {s s' : VState ℝ} (h : OffDict s s') (L : RVLike) : L.points mod s' = L.points mod s := by
  unfold RVLike.points
  congr 1
  funext o
  rw [hmod s s' h.rows h.indices h.basis h.planets]

theorem OffDict.residuals {mod : Curve} (hmod : mod.DictFree) {s s' : VState ℝ} (h : OffDict s s') (L : RVLike) : OffDictR (L.residuals mod s) (L.residuals mod s') := by
  unfold RVLike.residuals
  rw [h.points hmod, h.readRow]
  simp only [bind, Except.bind]
  rcases L.points mod s with e | pts
  · rfl
  simp only []
  rcases Radvel.readRow s L.gammaIdx with e | g
  · rfl
  simp only []
  rcases Radvel.readRow s L.jitIdx with e | j
  · rfl
  simp only []
  have key : OffDict (if g.analytic = true then { s with rows := s.rows.set L.gammaIdx { g with value := if g.analytic = true then weightedOffset pts j.value else g.value } } else s)
      (if g.analytic = true then { s' with rows := s'.rows.set L.gammaIdx { g with value := if g.analytic = true then weightedOffset pts j.value else g.value } } else s') := by
    by_cases ha : g.analytic = true
    · simp only [ha, if_true]
      exact ⟨by simp only [h.rows], h.indices, h.names, h.basis, h.planets⟩
    · simp only [ha]
      exact h
  rw [key.decorr]
  rcases List.foldlM _ _ L.decParams with e | r
  · rfl
  · exact ⟨key, rfl⟩

theorem OffDict.logprob {mod : Curve} (hmod : mod.DictFree) {s s' : VState ℝ} (h : OffDict s s') (L : RVLike) : OffDictR (L.logprob mod s) (L.logprob mod s') := by
  unfold RVLike.logprob
  rw [h.readRow]
  simp only [bind, Except.bind]
  rcases Radvel.readRow s L.jitIdx with e | j
  · rfl
  simp only []
  have hr := h.residuals hmod L
  rcases hs : L.residuals mod s with e | x <;> rcases hs' : L.residuals mod s' with e' | x' <;> rw [hs, hs'] at hr
  · exact hr
  · cases hr
  · cases hr
  · obtain ⟨h1, h2⟩ := hr
    simp only
    rw [h1.readRow]
    rcases Radvel.readRow x.1 L.gammaIdx with e | g
    · rfl
    · refine ⟨h1, ?_⟩
      simp only [h2]

/-- A likelihood that does not read the dictionary. -/
def LikeEval.OffDict (like : LikeEval) : Prop := ∀ s s', Radvel.OffDict s s' → OffDictR (like s) (like s')

theorem composite_off {mod : Curve} (hmod : mod.DictFree) (Ls : List RVLike) : LikeEval.OffDict (compositeLogprob (Ls.map fun L => L.logprob mod)) := by
  intro s s' h
  unfold compositeLogprob
  generalize (0 : Fl) = acc
  induction Ls generalizing s s' acc with
  | nil => exact ⟨h, rfl⟩
  | cons L t ih =>
    rw [List.map_cons, List.foldlM_cons, List.foldlM_cons]
    have hl := h.logprob hmod L
    simp only [compositeStep]
    rcases hs : L.logprob mod s with e | x <;> rcases hs' : L.logprob mod s' with e' | x' <;> rw [hs, hs'] at hl
    · exact hl
    · cases hl
    · cases hl
    · obtain ⟨h1, h2⟩ := hl
      simp only [bind, Except.bind]
      rw [h2]
      exact ih _ _ h1 _

theorem OffDictR.value {like : LikeEval} (hl : like.OffDict) {s s' : VState ℝ} (h : OffDict s s') : like.value s' = like.value s := by
  have := hl s s' h
  unfold LikeEval.value
  rcases hs : like s with e | x <;> rcases hs' : like s' with e' | x' <;> rw [hs, hs'] at this
  · rw [show e' = e from this]
  · cases this
  · cases this
  · simp only [this.2]

theorem OffDictR.after {like : LikeEval} (hl : like.OffDict) {s s' : VState ℝ} (h : OffDict s s') : OffDict (like.after s) (like.after s') := by
  have := hl s s' h
  unfold LikeEval.after
  rcases hs : like s with e | x <;> rcases hs' : like s' with e' | x' <;> rw [hs, hs'] at this
  · exact h
  · cases this
  · cases this
  · exact this.1

theorem OffDictR.stateAfter {like : LikeEval} (hl : like.OffDict) {s s' : VState ℝ} (h : OffDict s s') (r : Except PyErr Fl) :
    OffDict (stateAfter like s r) (stateAfter like s' r) := by
  unfold Radvel.stateAfter
  split
  · split
    · exact OffDictR.after hl h
    · exact h
  · exact h

/-- Posteriors that differ at most in the dictionary. -/
structure PostOff (p p' : PostState) : Prop where
  st : OffDict p.st p'.st
  like : p'.likeCache = p.likeCache
  post : p'.postCache = p.postCache
  priors : p'.priors = p.priors

theorem setVary_off {s s' : VState ℝ} (h : OffDict s s') (c : Option (List Nat)) (xs : List ℝ) :
    let r := LikeState.setVaryParams { st := s, cache := c } xs true
    let r' := LikeState.setVaryParams { st := s', cache := c } xs true
    OffDict r.1.st r'.1.st ∧ r'.1.cache = r.1.cache ∧ r'.2 = r.2 := by
  have key : ∀ c, OffDict (LikeState.refreshFor ⟨s, c⟩ xs.length).st (LikeState.refreshFor ⟨s', c⟩ xs.length).st ∧
      (LikeState.refreshFor ⟨s', c⟩ xs.length).cache = (LikeState.refreshFor ⟨s, c⟩ xs.length).cache := by
    intro c
    unfold LikeState.refreshFor LikeState.listVaryParams
    cases c with
    | none => exact ⟨h, by simp only [h.rows]⟩
    | some c =>
      simp only
      split
      · exact ⟨h, by simp only [h.rows]⟩
      · exact ⟨h, rfl⟩
  obtain ⟨k1, k2⟩ := key c
  simp only [LikeState.setVaryParams, k2, k1.rows, if_true]
  split
  · exact ⟨⟨rfl, k1.indices, k1.names, k1.basis, k1.planets⟩, rfl, rfl⟩
  · exact ⟨⟨rfl, k1.indices, k1.names, k1.basis, k1.planets⟩, rfl, rfl⟩

theorem PostOff.set {p p' : PostState} (h : PostOff p p') (xs : List ℝ) : PostOff (p.setFast xs).1 (p'.setFast xs).1 ∧ (p'.setFast xs).2 = (p.setFast xs).2 := by
  have hs := setVary_off h.st p.likeCache xs
  unfold PostState.setFast PostState.likeState
  rw [h.like]
  exact ⟨⟨hs.1, hs.2.1, h.post, h.priors⟩, hs.2.2⟩

theorem PostOff.array {like : LikeEval} (hl : like.OffDict) {p p' : PostState} (h : PostOff p p') (xs : List ℝ) :
    PostOff (p.logprobArray like xs).1 (p'.logprobArray like xs).1 ∧ (p'.logprobArray like xs).2 = (p.logprobArray like xs).2 := by
  obtain ⟨h1, h2⟩ := h.set xs
  unfold PostState.logprobArray
  rcases hs : p.setFast xs with ⟨q, o⟩
  rcases hs' : p'.setFast xs with ⟨q', o'⟩
  rw [hs, hs'] at h1 h2
  simp only at h1 h2
  subst h2
  cases o' with
  | some e => exact ⟨h1, rfl⟩
  | none =>
    have hp : priorSum q'.st q'.priors = priorSum q.st q.priors := by rw [h1.priors, h1.st.priorSum]
    refine ⟨⟨?_, h1.like, h1.post, h1.priors⟩, ?_⟩
    · simp only [hp]
      exact OffDictR.stateAfter hl h1.st _
    · simp only
      unfold Radvel.logprob
      rw [hp, OffDictR.value hl h1.st]

theorem PostOff.ns {like : LikeEval} (hl : like.OffDict) {p p' : PostState} (h : PostOff p p') (xs : List ℝ) :
    PostOff (p.likelihoodNsArray like xs).1 (p'.likelihoodNsArray like xs).1 ∧ (p'.likelihoodNsArray like xs).2 = (p.likelihoodNsArray like xs).2 := by
  obtain ⟨h1, h2⟩ := h.set xs
  unfold PostState.likelihoodNsArray
  rcases hs : p.setFast xs with ⟨q, o⟩
  rcases hs' : p'.setFast xs with ⟨q', o'⟩
  rw [hs, hs'] at h1 h2
  simp only at h1 h2
  subst h2
  cases o' with
  | some e => exact ⟨h1, rfl⟩
  | none =>
    have hp : extraLikelihood q'.st q'.priors = extraLikelihood q.st q.priors := by rw [h1.priors, h1.st.extra]
    refine ⟨⟨?_, h1.like, h1.post, h1.priors⟩, ?_⟩
    · simp only [hp]
      exact OffDictR.stateAfter hl h1.st _
    · simp only
      unfold Radvel.likelihoodNs
      rw [hp, OffDictR.value hl h1.st]

theorem PostOff.runAll {like : LikeEval} (hl : like.OffDict) : ∀ (calls : List PostCall) {p p' : PostState}, PostOff p p' → PostOff (p.runAll like calls) (p'.runAll like calls)
  | [], _, _, h => h
  | .logprobArray xs :: t, _, _, h => PostOff.runAll hl t (h.array hl xs).1
  | .likelihoodNsArray xs :: t, _, _, h => PostOff.runAll hl t (h.ns hl xs).1

/-! ### Gaussian processes -/

/-- States of a GP likelihood that differ at most in the dictionary. -/
structure GPOff (g g' : GPState) : Prop where
  st : OffDict g.st g'.st
  kernel : g'.kernel = g.kernel

theorem GPOff.updateKey {g g' : GPState} (h : GPOff g g') (G : GPLike) (key : Key) :
    (∃ e, G.updateKey g key = .error e ∧ G.updateKey g' key = .error e) ∨ ∃ a a', G.updateKey g key = .ok a ∧ G.updateKey g' key = .ok a' ∧ GPOff a a' := by
  unfold GPLike.updateKey
  by_cases hk : key ∉ G.hnames
  · rw [if_pos hk, if_pos hk]
    exact .inr ⟨_, _, rfl, rfl, h⟩
  rw [if_neg hk, if_neg hk]
  rcases hparamsKey key.render with e | slot
  · exact .inl ⟨_, rfl, rfl⟩
  simp only [h.kernel, h.st.indices, h.st.rows]
  split
  · rcases g.st.indices.get? key with _ | i
    · exact .inl ⟨_, rfl, rfl⟩
    simp only
    rcases g.st.rows[i]? with _ | r
    · exact .inl ⟨_, rfl, rfl⟩
    · refine .inr ⟨_, _, rfl, rfl, ?_, rfl⟩
      refine ⟨rfl, rfl, h.st.names, ?_, ?_⟩
      · simp only
        split <;> split <;> exact h.st.basis
      · simp only
        split <;> split <;> exact h.st.planets
  · exact .inl ⟨_, rfl, rfl⟩

theorem GPOff.loop (G : GPLike) : ∀ (ks : List Key) {g g' : GPState}, GPOff g g' →
    GPOff (runLoop G.updateKey g ks).1 (runLoop G.updateKey g' ks).1 ∧ (runLoop G.updateKey g' ks).2 = (runLoop G.updateKey g ks).2
  | [], _, _, h => ⟨h, rfl⟩
  | k :: ks, g, g', h => by
    unfold runLoop
    rcases h.updateKey G k with ⟨e, h1, h2⟩ | ⟨a, a', h1, h2, h3⟩
    · rw [h1, h2]; exact ⟨h, rfl⟩
    · rw [h1, h2]; exact GPOff.loop G ks h3

theorem GPOff.update {g g' : GPState} (h : GPOff g g') (G : GPLike) : GPOff (G.update g).1 (G.update g').1 ∧ (G.update g').2 = (G.update g).2 := by
  unfold GPLike.update
  rw [h.st.indices]
  exact GPOff.loop G _ h

theorem GPOff.logprob {mod : Curve} (hmod : mod.DictFree) {g g' : GPState} (h : GPOff g g') (G : GPLike) :
    GPOff (G.logprob mod g).1 (G.logprob mod g').1 ∧ (G.logprob mod g').2 = (G.logprob mod g).2 := by
  obtain ⟨h1, h2⟩ := h.update G
  unfold GPLike.logprob
  rcases hu : G.update g with ⟨a, r⟩
  rcases hu' : G.update g' with ⟨a', r'⟩
  rw [hu, hu'] at h1 h2
  simp only at h1 h2
  subst h2
  rcases r' with e | u
  · exact ⟨h1, rfl⟩
  have e1 : G.resids mod a'.st = G.resids mod a.st := by unfold GPLike.resids; rw [h1.st.readRow, h1.st.points hmod]
  have e2 : G.rv.errorbars a'.st = G.rv.errorbars a.st := by unfold RVLike.errorbars; rw [h1.st.readRow]
  simp only [e1, e2, h1.kernel]
  split
  · exact ⟨h1, rfl⟩
  · exact ⟨h1, rfl⟩
  · split
    · exact ⟨⟨h1.st, rfl⟩, rfl⟩
    · exact ⟨⟨h1.st, rfl⟩, rfl⟩

theorem gpSum_off {mod : Curve} (hmod : mod.DictFree) : ∀ (ms : List (GPLike × Kernel)) {s s' : VState ℝ} (acc : Fl), OffDict s s' →
    OffDict (gpSum mod ms s acc).1.1 (gpSum mod ms s' acc).1.1 ∧ (gpSum mod ms s' acc).1.2 = (gpSum mod ms s acc).1.2 ∧ (gpSum mod ms s' acc).2 = (gpSum mod ms s acc).2
  | [], _, _, _, h => ⟨h, rfl, rfl⟩
  | (G, k) :: t, s, s', acc, h => by
    obtain ⟨h1, h2⟩ := GPOff.logprob hmod (g := ⟨s, k⟩) (g' := ⟨s', k⟩) ⟨h, rfl⟩ G
    unfold gpSum
    rcases hg : G.logprob mod ⟨s, k⟩ with ⟨g, r⟩
    rcases hg' : G.logprob mod ⟨s', k⟩ with ⟨g', r'⟩
    rw [hg, hg'] at h1 h2
    simp only at h1 h2
    subst h2
    rcases r' with e | v
    · exact ⟨h1.st, by simp only [h1.kernel], rfl⟩
    · obtain ⟨i1, i2, i3⟩ := gpSum_off hmod t (acc + v) h1.st
      simp only
      rcases hr : gpSum mod t g.st (acc + v) with ⟨⟨s1, t1⟩, r1⟩
      rcases hr' : gpSum mod t g'.st (acc + v) with ⟨⟨s2, t2⟩, r2⟩
      rw [hr, hr'] at i1 i2 i3
      exact ⟨i1, by simp only [h1.kernel]; rw [show t2 = t1 from i2], i3⟩

/-- GP posteriors that differ at most in the dictionary. -/
structure GPPostOff (p p' : GPPost) : Prop where
  st : OffDict p.st p'.st
  like : p'.likeCache = p.likeCache
  priors : p'.priors = p.priors
  members : p'.members = p.members

theorem GPPostOff.set {p p' : GPPost} (h : GPPostOff p p') (xs : List ℝ) : GPPostOff (p.setFast xs).1 (p'.setFast xs).1 ∧ (p'.setFast xs).2 = (p.setFast xs).2 := by
  have hs := setVary_off h.st p.likeCache xs
  unfold GPPost.setFast
  rw [h.like]
  exact ⟨⟨hs.1, hs.2.1, h.priors, h.members⟩, hs.2.2⟩

theorem GPPostOff.addLike {mod : Curve} (hmod : mod.DictFree) {p p' : GPPost} (h : GPPostOff p p') (v : Fl) :
    GPPostOff (p.addLike mod v).1 (p'.addLike mod v).1 ∧ (p'.addLike mod v).2 = (p.addLike mod v).2 := by
  unfold GPPost.addLike
  rw [h.members]
  obtain ⟨i1, i2, i3⟩ := gpSum_off hmod p.members 0 h.st
  rcases hr : gpSum mod p.members p.st 0 with ⟨⟨s1, t1⟩, r1⟩
  rcases hr' : gpSum mod p.members p'.st 0 with ⟨⟨s2, t2⟩, r2⟩
  rw [hr, hr'] at i1 i2 i3
  simp only at i1 i2 i3
  subst i2 i3
  rcases r2 with e | l
  · exact ⟨⟨i1, h.like, h.priors, rfl⟩, rfl⟩
  · exact ⟨⟨i1, h.like, h.priors, rfl⟩, rfl⟩

theorem GPPostOff.array {mod : Curve} (hmod : mod.DictFree) {p p' : GPPost} (h : GPPostOff p p') (xs : List ℝ) :
    GPPostOff (p.logprobArray mod xs).1 (p'.logprobArray mod xs).1 ∧ (p'.logprobArray mod xs).2 = (p.logprobArray mod xs).2 := by
  obtain ⟨h1, h2⟩ := h.set xs
  unfold GPPost.logprobArray
  rcases hs : p.setFast xs with ⟨q, o⟩
  rcases hs' : p'.setFast xs with ⟨q', o'⟩
  rw [hs, hs'] at h1 h2
  simp only at h1 h2
  subst h2
  cases o' with
  | some e => exact ⟨h1, rfl⟩
  | none =>
    simp only
    unfold GPPost.logprob
    rw [h1.priors, h1.st.priorSum]
    rcases Radvel.priorSum q.st q.priors with e | v
    · exact ⟨h1, rfl⟩
    · simp only
      split
      · exact h1.addLike hmod v
      · exact ⟨h1, rfl⟩

theorem GPPostOff.ns {mod : Curve} (hmod : mod.DictFree) {p p' : GPPost} (h : GPPostOff p p') (xs : List ℝ) :
    GPPostOff (p.likelihoodNsArray mod xs).1 (p'.likelihoodNsArray mod xs).1 ∧ (p'.likelihoodNsArray mod xs).2 = (p.likelihoodNsArray mod xs).2 := by
  obtain ⟨h1, h2⟩ := h.set xs
  unfold GPPost.likelihoodNsArray
  rcases hs : p.setFast xs with ⟨q, o⟩
  rcases hs' : p'.setFast xs with ⟨q', o'⟩
  rw [hs, hs'] at h1 h2
  simp only at h1 h2
  subst h2
  cases o' with
  | some e => exact ⟨h1, rfl⟩
  | none =>
    simp only
    rw [h1.priors, h1.st.extra]
    rcases Radvel.extraLikelihood q.st q.priors with e | v
    · exact ⟨h1, rfl⟩
    · simp only
      split
      · exact h1.addLike hmod v
      · exact ⟨h1, rfl⟩

theorem GPPostOff.runAll {mod : Curve} (hmod : mod.DictFree) : ∀ (calls : List PostCall) {p p' : GPPost}, GPPostOff p p' → GPPostOff (p.runAll mod calls) (p'.runAll mod calls)
  | [], _, _, h => h
  | .logprobArray xs :: t, _, _, h => GPPostOff.runAll hmod t (h.array hmod xs).1
  | .likelihoodNsArray xs :: t, _, _, h => GPPostOff.runAll hmod t (h.ns hmod xs).1

/-! ### loading -/

theorem dropNone_some {β : Type} (t : Dict Key β) (kept : Dict Key (Option β)) : dropNone kept (t.map fun x => (x.1, some x.2)) = .ok (kept ++ t.map fun x => (x.1, some x.2)) := by
  induction t generalizing kept with
  | nil => simp [dropNone]
  | cons x t ih => rw [List.map_cons, dropNone, ih]; simp

theorem someEntries_some {β : Type} (t : Dict Key β) : someEntries (t.map fun x => (x.1, some x.2)) = t := by
  unfold someEntries
  induction t with
  | nil => rfl
  | cons x t ih => rw [List.map_cons, List.filterMap_cons]; simp only [Option.map_some]; rw [ih]

theorem load_eq {α : Type} (dflt : α) (s : VState α) : s.load dflt = .ok { s with params := s.params.unpickle dflt } := by
  unfold VState.load
  simp only [dropNone_some, List.nil_append, someEntries_some]

theorem init_get {α : Type} (dflt : α) (N : Nat) (b : BasisName) (l : Option (Dict Nat String)) (k : Key) (hk : k ∈ defaultKeys N b.words) :
    (Params.init dflt N b l).items.get? k = some { value := dflt } := by
  have key : ∀ (ks : List Key) (d : Dict Key (Parameter α)), (k ∈ ks ∨ d.get? k = some { value := dflt }) →
      (ks.foldl (fun d k => d.set k { value := dflt }) d).get? k = some { value := dflt } := by
    intro ks
    induction ks with
    | nil => intro d h; simpa using h
    | cons a t ih =>
      intro d h
      rw [List.foldl_cons]
      apply ih
      by_cases ha : k = a
      · right; rw [ha, Dict.get?_set_self]
      · rcases h with h | h
        · exact .inl ((List.mem_cons.1 h).resolve_left ha)
        · right; rw [Dict.get?_set, if_neg (fun h => ha h.symm)]; exact h
  exact key _ _ (.inl hk)

theorem load_off (dflt : ℝ) (s : VState ℝ) : OffDict s { s with params := s.params.unpickle dflt } := ⟨rfl, rfl, rfl, rfl, rfl⟩

end Radvel
