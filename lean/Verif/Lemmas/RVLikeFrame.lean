import Verif.Spec.RVLike
import Verif.Lemmas.RVLike
import Verif.Lemmas.RVModel
import Verif.Lemmas.Like
import Verif.Lemmas.Posterior

namespace Radvel
open Real

/-! ### the model's frame -/

theorem convBlock_frame (f : Block → Block) (flags : List Nat) (flag : Bool) (M i : Nat) (r1 r2 : List (Row ℝ)) (hl : r2.length = r1.length)
    (hi : 5 * i + 5 ≤ M) (h : ∀ a : Nat, a < M → r2[a]? = r1[a]?) :
    (∃ e, convBlock f flags flag r1 i = .error e ∧ convBlock f flags flag r2 i = .error e) ∨
    (∃ q1 q2, convBlock f flags flag r1 i = .ok q1 ∧ convBlock f flags flag r2 i = .ok q2 ∧ q2.length = q1.length ∧ ∀ a : Nat, a < M → q2[a]? = q1[a]?) := by
  unfold convBlock
  rw [h (5 * i) (by omega), h (5 * i + 1) (by omega), h (5 * i + 2) (by omega), h (5 * i + 3) (by omega), h (5 * i + 4) (by omega)]
  split
  · refine Or.inr ⟨_, _, rfl, rfl, by simp [hl], ?_⟩
    intro a ha
    simp only [List.getElem?_set, List.length_set, hl, h a ha]
  · exact Or.inl ⟨_, rfl, rfl⟩

theorem convBlocks_frame (f : Block → Block) (flags : List Nat) (flag : Bool) (M : Nat) (is : List Nat) (r1 r2 : List (Row ℝ)) (hl : r2.length = r1.length)
    (hi : ∀ i ∈ is, 5 * i + 5 ≤ M) (h : ∀ a : Nat, a < M → r2[a]? = r1[a]?) :
    (∃ e, is.foldlM (fun rows i => convBlock f flags flag rows i) r1 = .error e ∧ is.foldlM (fun rows i => convBlock f flags flag rows i) r2 = .error e) ∨
    (∃ q1 q2, is.foldlM (fun rows i => convBlock f flags flag rows i) r1 = .ok q1 ∧ is.foldlM (fun rows i => convBlock f flags flag rows i) r2 = .ok q2 ∧
      ∀ a : Nat, a < M → q2[a]? = q1[a]?) := by
  induction is generalizing r1 r2 with
  | nil => exact Or.inr ⟨r1, r2, rfl, rfl, h⟩
  | cons i t ih =>
    simp only [List.foldlM_cons]
    rcases convBlock_frame f flags flag M i r1 r2 hl (hi i (by simp)) h with ⟨e, h1, h2⟩ | ⟨q1, q2, h1, h2, h3, h4⟩
    · rw [h1, h2]; exact Or.inl ⟨e, rfl, rfl⟩
    · rw [h1, h2]
      exact ih q1 q2 h3 (fun i hi' => hi i (List.mem_cons_of_mem _ hi')) h4

theorem vToSynth_frame (b : BasisName) (N : Nat) (r1 r2 : List (Row ℝ)) (hl : r2.length = r1.length) (h : ∀ a : Nat, a < 5 * N → r2[a]? = r1[a]?) :
    (∃ e, vToSynth b N r1 = .error e ∧ vToSynth b N r2 = .error e) ∨
    (∃ q1 q2, vToSynth b N r1 = .ok q1 ∧ vToSynth b N r2 = .ok q2 ∧ ∀ a : Nat, a < 5 * N → q2[a]? = q1[a]?) := by
  unfold vToSynth
  split
  · exact Or.inr ⟨_, _, rfl, rfl, h⟩
  · exact convBlocks_frame _ _ _ _ _ _ _ hl (by intro i hi; simp at hi; omega) h

theorem addPlanets_frame (drive : Drive) (t : ℝ) (N : Nat) (q1 q2 : List (Row ℝ)) (h : ∀ a : Nat, a < 5 * N → q2[a]? = q1[a]?) (is : List Nat)
    (hi : ∀ i ∈ is, i < N) (v : Option ℝ) : is.foldlM (addPlanet drive t q2) v = is.foldlM (addPlanet drive t q1) v := by
  induction is generalizing v with
  | nil => rfl
  | cons i l ih =>
    simp only [List.foldlM_cons]
    have hN := hi i (by simp)
    have : addPlanet drive t q2 v i = addPlanet drive t q1 v i := by
      unfold addPlanet
      rw [h (5 * i) (by omega), h (5 * i + 1) (by omega), h (5 * i + 2) (by omega), h (5 * i + 3) (by omega), h (5 * i + 4) (by omega)]
    rw [this]
    cases addPlanet drive t q1 v i with
    | error e => rfl
    | ok v' => exact ih (fun i hi' => hi i (List.mem_cons_of_mem _ hi')) v'

/-- The RV model reads only the planets' and the trend's rows. -/
theorem modelCall_orbital (drive : Drive) (tb : ℝ) : Curve.Orbital (fun s t => modelCall drive tb s none t) := by
  intro s s' hb hp hi hl hr t
  have hinv := hb.inv.1
  simp only
  unfold modelCall standardRvCalc
  rw [hp]
  have ht : ∀ k, k = Key.dvdt ∨ k = Key.curv → trendCoef s' k = trendCoef s k := by
    intro k hk
    unfold trendCoef
    rw [hi]
    rcases hk with rfl | rfl
    · rw [hinv.dvdtIdx]; simp only; rw [hr _ (by omega)]
    · rw [hinv.curvIdx]; simp only; rw [hr _ (by omega)]
  rw [ht _ (.inl rfl), ht _ (.inr rfl)]
  rcases vToSynth_frame s.params.basis s.params.numPlanets s.rows s'.rows hl (fun a ha => hr a (by omega)) with ⟨e, h1, h2⟩ | ⟨q1, q2, h1, h2, h3⟩
  · rw [h1, h2]
  · rw [h1, h2]
    have := addPlanets_frame drive t _ q1 q2 h3 (List.range s.params.numPlanets) (by simp) (some 0)
    simp only [bind, Except.bind]
    rw [this]

/-! ### reachable likelihoods -/

theorem addExtra_indices (acc : VState ℝ × Nat) (key k : Key) (i : Nat) (h : acc.1.indices.get? k = some i) :
    (addExtra acc key).1.indices.get? k = some i := by
  unfold addExtra
  simp only
  split
  · exact h
  · rename_i hn
    have : key ≠ k := by
      rintro rfl
      apply hn
      simp [Dict.has, h]
    simp [Dict.get?_set, h, this]

theorem addExtras_indices (ks : List Key) (acc : VState ℝ × Nat) (k : Key) (i : Nat) (h : acc.1.indices.get? k = some i) :
    (ks.foldl addExtra acc).1.indices.get? k = some i := by
  induction ks generalizing acc with
  | nil => exact h
  | cons a t ih => exact ih _ (addExtra_indices acc a k i h)

theorem dictToVector_indices (s s' : VState ℝ) (h : s.dictToVector = .ok s') : s'.indices = s.indices ∧ s'.params = s.params := by
  unfold VState.dictToVector at h
  split at h
  · cases h; exact ⟨rfl, rfl⟩
  · cases h

theorem vectorNames_indices (s s' : VState ℝ) (h : s.vectorNames = .ok s') : s'.indices = s.indices ∧ s'.params = s.params := by
  unfold VState.vectorNames at h
  split at h
  · cases h
  · split at h
    · cases h
    · split at h
      · cases h
      · cases h; exact ⟨rfl, rfl⟩

theorem vectorToDict_indices (s s' : VState ℝ) (h : s.vectorToDict = .ok s') : s'.indices = s.indices := by
  unfold VState.vectorToDict at h
  split at h
  · cases h; rfl
  · cases h

theorem addLikelihood_indices (s s' : VState ℝ) (extra decorr : List Key) (h : s.addLikelihood extra decorr = .ok s') (k : Key) (i : Nat)
    (hk : s.indices.get? k = some i) : s'.indices.get? k = some i := by
  unfold VState.addLikelihood at h
  simp only at h
  split at h
  · cases h
  · rename_i s2 h2
    rw [(vectorNames_indices _ _ h).1, (dictToVector_indices _ _ h2).1]
    exact addExtras_indices _ _ _ _ hk

theorem RVLike.new_built (s s' : VState ℝ) (L : RVLike) (obs : List Obs) (suffix : String) (vars : List String) (keys : List (List Char)) (hs : Built s)
    (hL : RVLike.new s obs suffix vars keys = .ok (s', L)) :
    Built s' ∧ L.On s' ∧ L.suffix = suffix ∧ L.obs = obs ∧ L.decParams = vars.map (decorrName suffix) ∧ L.decVars = keys ∧
    (∀ k i, s.indices.get? k = some i → s'.indices.get? k = some i) := by
  unfold RVLike.new at hL
  simp only at hL
  split at hL
  · cases hL
  · rename_i s2 h2
    split at hL
    · rename_i g j hg hj
      cases hL
      have hb : Built s' := .like s s' _ _ hs (by
        intro k hk p n
        simp only [List.mem_append, List.mem_cons, List.mem_map, List.not_mem_nil, or_false] at hk
        rcases hk with (rfl | rfl) | ⟨a, _, rfl⟩ <;> simp) h2
      refine ⟨hb, ⟨hg, hj, ?_⟩, rfl, rfl, rfl, rfl, addLikelihood_indices _ _ _ _ h2⟩
      intro p hp
      obtain ⟨s3, e1, e2, _, _, e5, _⟩ := likelihood_fresh hs.inv.1 [.inst .gamma suffix, .inst .jit suffix] ((vars.map (decorrName suffix)).map Key.other) (by
        intro k hk p n
        simp only [List.mem_append, List.mem_cons, List.mem_map, List.not_mem_nil, or_false] at hk
        rcases hk with (rfl | rfl) | ⟨a, _, rfl⟩ <;> simp) (by rw [hs.inv.2]; simp)
      rw [h2] at e1; cases e1
      have hm : Key.other p ∈ s'.params.items.keys := e5 _ (by
        apply List.mem_append_right
        exact List.mem_map_of_mem hp)
      have hu := e2.ui
      cases hi : s'.indices.get? (.other p) with
      | some i => exact ⟨i, rfl⟩
      | none =>
        have : Key.other p ∈ unindexed s' := by simp [unindexed, hm, Dict.has, hi]
        rw [hu] at this; cases this
    · cases hL

theorem Likes.built {s : VState ℝ} {Ls : List RVLike} (h : Likes s Ls) : Built s ∧ ∀ L ∈ Ls, L.On s := by
  induction h with
  | start s h => exact ⟨h, by simp⟩
  | like s s' Ls L h obs suffix vars keys hL ih =>
    obtain ⟨e1, e2, _, _, _, _, e7⟩ := RVLike.new_built s s' L obs suffix vars keys ih.1 hL
    refine ⟨e1, ?_⟩
    intro M hM
    rcases List.mem_append.1 hM with hM | hM
    · obtain ⟨a, b, c⟩ := ih.2 M hM
      exact ⟨e7 _ _ a, e7 _ _ b, fun p hp => by obtain ⟨i, hi⟩ := c p hp; exact ⟨i, e7 _ _ hi⟩⟩
    · simp at hM; subst hM; exact e2
  | edit s Ls k v h hk hv ih =>
    exact ⟨.edit s k v ih.1 hk hv, fun L hL => ⟨(ih.2 L hL).gamma, (ih.2 L hL).jit, (ih.2 L hL).dec⟩⟩
  | write s Ls rows h hl ih =>
    exact ⟨.write s rows ih.1 hl, fun L hL => ⟨(ih.2 L hL).gamma, (ih.2 L hL).jit, (ih.2 L hL).dec⟩⟩
  | toVector s s' Ls h hs ih =>
    have := (dictToVector_indices _ _ hs).1
    exact ⟨.toVector s s' ih.1 hs, fun L hL => ⟨this ▸ (ih.2 L hL).gamma, this ▸ (ih.2 L hL).jit, this ▸ (ih.2 L hL).dec⟩⟩
  | toDict s s' Ls h hs ih =>
    have := vectorToDict_indices _ _ hs
    exact ⟨.toDict s s' ih.1 hs, fun L hL => ⟨this ▸ (ih.2 L hL).gamma, this ▸ (ih.2 L hL).jit, this ▸ (ih.2 L hL).dec⟩⟩

/-! ### states that differ only in analytic gammas -/

structure AgreeOff (s s' : VState ℝ) : Prop where
  params : s'.params = s.params
  indices : s'.indices = s.indices
  names : s'.names = s.names
  flags : SameFlags s.rows s'.rows
  rows : ∀ i : Nat, ¬ AnalyticGamma s i → s'.rows[i]? = s.rows[i]?

theorem AgreeOff.refl (s : VState ℝ) : AgreeOff s s := ⟨rfl, rfl, rfl, SameFlags.refl _, fun _ _ => rfl⟩

theorem SameFlags.symm {a b : List (Row ℝ)} (h : SameFlags a b) : SameFlags b a := by
  refine ⟨h.1.symm, ?_⟩
  intro i r hr
  have hlt : i < a.length := by rw [← h.1]; exact (List.getElem?_eq_some_iff.1 hr).1
  obtain ⟨r', h1, h2, h3, h4⟩ := h.2 i a[i] (List.getElem?_eq_getElem hlt)
  rw [hr] at h1; cases h1
  exact ⟨a[i], List.getElem?_eq_getElem hlt, h2.symm, h3.symm, h4.symm⟩

theorem AgreeOff.analytic {s s' : VState ℝ} (h : AgreeOff s s') (i : Nat) : AnalyticGamma s' i ↔ AnalyticGamma s i := by
  constructor
  · rintro ⟨x, r, h1, h2, h3, h4⟩
    obtain ⟨r', a1, a2, a3, a4⟩ := h.flags.symm.2 i r h2
    exact ⟨x, r', h.indices ▸ h1, a1, by rw [a4]; exact h3, by rw [a2]; exact h4⟩
  · rintro ⟨x, r, h1, h2, h3, h4⟩
    obtain ⟨r', a1, a2, a3, a4⟩ := h.flags.2 i r h2
    exact ⟨x, r', by rw [h.indices]; exact h1, a1, by rw [a4]; exact h3, by rw [a2]; exact h4⟩

theorem AgreeOff.trans {s s' s'' : VState ℝ} (h : AgreeOff s s') (h' : AgreeOff s' s'') : AgreeOff s s'' :=
  ⟨h'.params.trans h.params, h'.indices.trans h.indices, h'.names.trans h.names, h.flags.trans h'.flags,
    fun i hi => (h'.rows i (fun hc => hi ((h.analytic i).1 hc))).trans (h.rows i hi)⟩

theorem AgreeOff.symm {s s' : VState ℝ} (h : AgreeOff s s') : AgreeOff s' s :=
  ⟨h.params.symm, h.indices.symm, h.names.symm, h.flags.symm, fun i hi => (h.rows i (fun hc => hi ((h.analytic i).2 hc))).symm⟩

/-- A row of another parameter is not an analytic gamma. -/
theorem not_analytic {s : VState ℝ} (hs : Built s) {k : Key} {i : Nat} (hk : k ∈ s.params.items.keys ∨ k = .dvdt ∨ k = .curv)
    (hi : s.indices.get? k = some i) (hg : ∀ x, k ≠ .inst .gamma x) : ¬ AnalyticGamma s i := by
  rintro ⟨x, r, h1, _⟩
  have hrel : IdxInv.Rel s (.inst .gamma x) := .inl (hs.inv.1.ext _ _ rfl rfl h1).1
  exact hg x (hs.inv.1.inj hk hrel hi h1)

theorem not_analytic_orbital {s : VState ℝ} (hs : Built s) {i : Nat} (hi : i < 5 * s.params.numPlanets + 2) : ¬ AnalyticGamma s i := by
  rintro ⟨x, r, h1, _⟩
  have := (hs.inv.1.ext _ _ rfl rfl h1).2.1
  omega

theorem AgreeOff.mod {mod : Curve} (hmod : mod.Orbital) {s s' : VState ℝ} (hs : Built s) (h : AgreeOff s s') (t : ℝ) : mod s' t = mod s t :=
  hmod s s' hs h.params h.indices h.flags.1 (fun i hi => h.rows i (not_analytic_orbital hs hi)) t

theorem readPar_frame {s s' : VState ℝ} (h : AgreeOff s s') (k : Key) (hk : ∀ i, s.indices.get? k = some i → ¬ AnalyticGamma s i) :
    readPar s' k = readPar s k := by
  unfold readPar
  rw [h.indices]
  cases hi : s.indices.get? k with
  | none => rfl
  | some i => simp only; rw [h.rows i (hk i hi)]

theorem readPars_congr {s s' : VState ℝ} (ks : List Key) (h : ∀ k ∈ ks, readPar s' k = readPar s k) : readPars s' ks = readPars s ks := by
  induction ks with
  | nil => rfl
  | cons k t ih =>
    unfold readPars
    rw [h k (by simp), ih (fun k hk => h k (List.mem_cons_of_mem _ hk))]

theorem decFun_congr {s s' : VState ℝ} (L : RVLike) (h : ∀ p ∈ L.decParams, readPar s' (.other p) = readPar s (.other p)) :
    L.decFun s' = L.decFun s := by
  have h1 : ∀ var, L.pars s' var = L.pars s var := by
    intro var
    unfold RVLike.pars
    rw [readPars_congr]
    intro k hk
    obtain ⟨p, hp, rfl⟩ := List.mem_map.1 hk
    exact h p (List.mem_of_mem_filter hp)
  have h2 : L.decAcc s' = L.decAcc s := by
    funext f p
    unfold RVLike.decAcc RVLike.decFun1
    simp only [h1]
  unfold RVLike.decFun
  rw [h2]

theorem On.other_not_analytic {s : VState ℝ} (hs : Built s) {p : String} {i : Nat} (hi : s.indices.get? (.other p) = some i) : ¬ AnalyticGamma s i :=
  not_analytic hs (.inl (hs.inv.1.ext _ _ rfl rfl hi).1) hi (by simp)

theorem On.rows {s : VState ℝ} (hs : Built s) {L : RVLike} (hL : L.On s) :
    ∃ g j, s.rows[L.gammaIdx]? = some g ∧ s.rows[L.jitIdx]? = some j ∧ ¬ AnalyticGamma s L.jitIdx ∧
      (AnalyticGamma s L.gammaIdx ↔ g.analytic = true) := by
  have h1 := (hs.inv.1.ext _ _ rfl rfl hL.gamma).2.2
  have h2 := (hs.inv.1.ext _ _ rfl rfl hL.jit)
  refine ⟨_, _, List.getElem?_eq_getElem h1, List.getElem?_eq_getElem h2.2.2, not_analytic hs (.inl h2.1) hL.jit (by simp), ?_⟩
  constructor
  · rintro ⟨x, r, _, h3, h4, h5⟩
    rw [List.getElem?_eq_getElem h1] at h3; cases h3
    simp [Row.analytic, h4, h5]
  · intro h
    simp [Row.analytic] at h
    exact ⟨_, _, hL.gamma, List.getElem?_eq_getElem h1, h.1, h.2⟩

theorem gammaWritten_agree {s : VState ℝ} {L : RVLike} (hL : L.On s) (m : ℝ → Option ℝ) {g j : Row ℝ}
    (hg : s.rows[L.gammaIdx]? = some g) : AgreeOff s (gammaWritten L m s g j) := by
  unfold gammaWritten
  split
  · rename_i ha
    simp [Row.analytic] at ha
    refine ⟨rfl, rfl, rfl, SameFlags.set _ _ _ hg _, ?_⟩
    intro i hi
    have : L.gammaIdx ≠ i := by
      rintro rfl
      exact hi ⟨_, g, hL.gamma, hg, ha.1, ha.2⟩
    simp [this]
  · exact AgreeOff.refl s

/-- Errors of the model. -/
theorem points_cases (mod : Curve) (L : RVLike) (s : VState ℝ) :
    (∃ m : ℝ → Option ℝ, ∀ o ∈ L.obs, mod s o.t = .ok (m o.t)) ∨ ∃ e, L.points mod s = .error e := by
  by_cases h : ∀ o ∈ L.obs, ∃ x, mod s o.t = .ok x
  · refine Or.inl ⟨fun t => match mod s t with | .ok x => x | .error _ => none, ?_⟩
    intro o ho
    obtain ⟨x, hx⟩ := h o ho
    simp [hx]
  · push Not at h
    obtain ⟨o, ho, hx⟩ := h
    refine Or.inr ?_
    unfold RVLike.points
    revert ho
    generalize L.obs = l
    intro ho
    induction l with
    | nil => simp at ho
    | cons a t ih =>
      rw [List.mapM_cons]
      cases ha : mod s a.t with
      | error e => exact ⟨e, rfl⟩
      | ok x =>
        have : o ∈ t := by
          rcases List.mem_cons.1 ho with rfl | ho
          · exact absurd ha (hx x)
          · exact ho
        obtain ⟨e, he⟩ := ih this
        exact ⟨e, by simp only [bind, Except.bind, he]⟩

theorem points_congr {mod : Curve} {L : RVLike} {s s' : VState ℝ} (h : ∀ t, mod s' t = mod s t) : L.points mod s' = L.points mod s := by
  unfold RVLike.points
  simp only [h]

/-- Everything about one evaluation that histories and composites need. -/
theorem logprob_frame {mod : Curve} (hmod : mod.Orbital) {s s' : VState ℝ} (hs : Built s) {L : RVLike} (hL : L.On s) (h : AgreeOff s s') :
    (∃ e, L.logprob mod s = .error e ∧ L.logprob mod s' = .error e ∧ L.residuals mod s = .error e ∧ L.residuals mod s' = .error e) ∨
    (∃ s1 s1' v r, L.logprob mod s = .ok (s1, v) ∧ L.logprob mod s' = .ok (s1', v) ∧ L.residuals mod s = .ok (s1, r) ∧ L.residuals mod s' = .ok (s1', r) ∧
      AgreeOff s s1 ∧ AgreeOff s s1') := by
  obtain ⟨g, j, hg, hj, hja, hga⟩ := On.rows hs hL
  have hj' : s'.rows[L.jitIdx]? = some j := by rw [h.rows _ hja, hj]
  obtain ⟨g', hg', f1, f2, f3⟩ := h.flags.2 _ g hg
  have hL' : L.On s' := ⟨by rw [h.indices]; exact hL.gamma, by rw [h.indices]; exact hL.jit, by rw [h.indices]; exact hL.dec⟩
  rcases points_cases mod L s with ⟨m, hm⟩ | ⟨e, he⟩
  · have hm' : ∀ o ∈ L.obs, mod s' o.t = .ok (m o.t) := fun o ho => by rw [h.mod hmod hs]; exact hm o ho
    have hana : g'.analytic = g.analytic := by simp [Row.analytic, f1, f3]
    have hused : gammaUsed L m g' j = gammaUsed L m g j := by
      unfold gammaUsed
      rw [hana]
      by_cases ha : g.analytic = true
      · simp [ha]
      · have : s'.rows[L.gammaIdx]? = s.rows[L.gammaIdx]? := h.rows _ (fun hc => ha (hga.1 hc))
        rw [hg, hg'] at this; cases this
        rfl
    have a1 := gammaWritten_agree hL m (j := j) hg
    have a2 := gammaWritten_agree hL' m (j := j) hg'
    have hd : ∀ s2, AgreeOff s s2 → L.decFun s2 = L.decFun s := by
      intro s2 h2
      apply decFun_congr
      intro p hp
      apply readPar_frame h2
      intro i hi
      exact On.other_not_analytic hs hi
    have hval : ∀ D, likeValue L m g' j D = likeValue L m g j D := by
      intro D; unfold likeValue; rw [hused, hana]
    rw [logprob_eq mod L s m hm g j hg hj, logprob_eq mod L s' m hm' g' j hg' hj', residuals_eq mod L s m hm g j hg hj,
      residuals_eq mod L s' m hm' g' j hg' hj', hd _ a1, hd _ (h.trans a2), hused]
    cases L.decFun s with
    | error e => exact Or.inl ⟨e, rfl, rfl, rfl, rfl⟩
    | ok D => exact Or.inr ⟨_, _, _, _, rfl, by simp only [hval], rfl, rfl, a1, h.trans a2⟩
  · have he' : L.points mod s' = .error e := by rw [points_congr (h.mod hmod hs)]; exact he
    refine Or.inl ⟨e, ?_, ?_, ?_, ?_⟩
    · simp only [RVLike.logprob, RVLike.residuals, readRow, hj, he, bind, Except.bind]
    · simp only [RVLike.logprob, RVLike.residuals, readRow, hj', he', bind, Except.bind]
    · simp only [RVLike.residuals, he, bind, Except.bind]
    · simp only [RVLike.residuals, he', bind, Except.bind]

end Radvel
