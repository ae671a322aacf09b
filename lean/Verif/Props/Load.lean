import Verif.Lemmas.Load
import Verif.Lemmas.GPReach
import Verif.Props.Params
import Verif.Props.History

/-!
# C159: a posterior survives saving and loading

`mod` is the model, `Ls` the likelihoods with white noise (the Gaussian processes are in `C159_gp`); `PostState.runAll` and `PostCall` are the histories of evaluations of Spec/History.
-/

namespace Radvel

/-- C159: loading what was saved succeeds, and from then on the loaded posterior cannot be told from the saved one by evaluations: after any sequence of calls of `logprob_array` and
`likelihood_ns_array` on both, also with arrays of the wrong length and after exceptions, both return the same (value or exception) for every array, and the free parameters have the same
names and values. Nothing is assumed of the posterior. -/
theorem C159_values (mod : Curve) (hmod : mod.DictFree) (Ls : List RVLike) (dflt : ℝ) (p : PostState) :
    let like := compositeLogprob (Ls.map fun L => L.logprob mod)
    ∃ q, p.load dflt = .ok q ∧ q.priors = p.priors ∧ ∀ calls xs,
      ((q.runAll like calls).logprobArray like xs).2 = ((p.runAll like calls).logprobArray like xs).2 ∧
      ((q.runAll like calls).likelihoodNsArray like xs).2 = ((p.runAll like calls).likelihoodNsArray like xs).2 ∧
      (q.runAll like calls).likeState.getVaryParams.2 = (p.runAll like calls).likeState.getVaryParams.2 ∧
      (q.runAll like calls).likeState.nameVaryParams.2 = (p.runAll like calls).likeState.nameVaryParams.2 ∧
      (q.runAll like calls).ownState.getVaryParams.2 = (p.runAll like calls).ownState.getVaryParams.2 ∧
      (q.runAll like calls).ownState.nameVaryParams.2 = (p.runAll like calls).ownState.nameVaryParams.2 := by
  intro like
  have hl : LikeEval.OffDict like := composite_off hmod Ls
  refine ⟨{ p with st := { p.st with params := p.st.params.unpickle dflt } }, ?_, rfl, fun calls xs => ?_⟩
  · unfold PostState.load
    rw [load_eq]
  · have h0 : PostOff p { p with st := { p.st with params := p.st.params.unpickle dflt } } := ⟨load_off dflt p.st, rfl, rfl, rfl⟩
    have h := PostOff.runAll hl calls h0
    refine ⟨(h.array hl xs).2, (h.ns hl xs).2, ?_, ?_, ?_, ?_⟩
    · simp only [LikeState.getVaryParams, PostState.likeState, LikeState.listVaryParams, h.like, h.st.rows]
      split <;> rfl
    · simp only [LikeState.nameVaryParams, PostState.likeState, LikeState.listVaryParams, h.like, h.st.rows, h.st.names]
      split <;> rfl
    · simp only [LikeState.getVaryParams, PostState.ownState, LikeState.listVaryParams, h.post, h.st.rows]
      split <;> rfl
    · simp only [LikeState.nameVaryParams, PostState.ownState, LikeState.listVaryParams, h.post, h.st.rows, h.st.names]
      split <;> rfl

/-- Non-vacuity of `C159_values`: the model of the code reads no dictionary, for every solver. -/
example (drive : Drive) (tb : ℝ) : Curve.DictFree (fun s t => modelCall drive tb s none t) := modelCall_dictFree drive tb

/-- Non-vacuity of `C159_values`: a posterior with one likelihood, an analytic gamma and a prior, whose log-probability is a number. -/
example : ∃ (p : PostState) (L : RVLike), Likes p.st [L] ∧ AnalyticGamma p.st L.gammaIdx ∧ p.priors = [.gaussian .dvdt 0 1] := by
  obtain ⟨s, L, h1, h2, h3, h4, h5, h6, h7⟩ := flatLike witnessObs "_a" [] [] trendRow
  obtain ⟨hb, hon⟩ := h1.built
  have hL := hon L (by simp)
  obtain ⟨r1, r2, r3⟩ := RVLike.other_row hb hL trendRow h7
  exact ⟨⟨s, none, none, [.gaussian .dvdt 0 1]⟩, L, h1, ⟨_, _, hL.gamma, r1, rfl, rfl⟩, rfl⟩

/-- C159: the same for posteriors with Gaussian processes. -/
theorem C159_gp (mod : Curve) (hmod : mod.DictFree) (dflt : ℝ) (p : GPPost) :
    ∃ q, p.load dflt = .ok q ∧ q.priors = p.priors ∧ ∀ calls xs,
      ((q.runAll mod calls).logprobArray mod xs).2 = ((p.runAll mod calls).logprobArray mod xs).2 ∧
      ((q.runAll mod calls).likelihoodNsArray mod xs).2 = ((p.runAll mod calls).likelihoodNsArray mod xs).2 := by
  refine ⟨{ p with st := { p.st with params := p.st.params.unpickle dflt } }, ?_, rfl, fun calls xs => ?_⟩
  · unfold GPPost.load
    rw [load_eq]
  · have h0 : GPPostOff p { p with st := { p.st with params := p.st.params.unpickle dflt } } := ⟨load_off dflt p.st, rfl, rfl, rfl⟩
    have h := GPPostOff.runAll hmod calls h0
    exact ⟨(h.array hmod xs).2, (h.ns hmod xs).2⟩

/-- C159 (missing: dictionaries that lack a parameter of their basis, see `C159_missing_violated`): the loaded dictionary has the same planets, basis, letters and parameters with the same
values, flags and scales, and the vector is the same. -/
theorem C159_dict_partial (dflt : ℝ) (p : PostState) (hn : p.st.params.items.keys.Nodup)
    (hd : ∀ x ∈ p.st.params.basis.words, ∀ n, 1 ≤ n → n ≤ p.st.params.numPlanets → Key.orb x n ∈ p.st.params.items.keys) :
    ∃ q, p.load dflt = .ok q ∧ q.st.params.numPlanets = p.st.params.numPlanets ∧ q.st.params.basis = p.st.params.basis ∧ q.st.params.letters = p.st.params.letters ∧
      (∀ k, q.st.params.items.get? k = p.st.params.items.get? k) ∧ q.st.rows = p.st.rows ∧ q.st.indices = p.st.indices ∧ q.st.names = p.st.names := by
  have h := C07_mapping dflt p.st.params hn hd
  refine ⟨{ p with st := { p.st with params := p.st.params.unpickle dflt } }, ?_, h.1, h.2.1, h.2.2.1, h.2.2.2.2, rfl, rfl, rfl⟩
  unfold PostState.load
  rw [load_eq]

/-- Non-vacuity of `C159_dict_partial`: one planet and a trend. -/
example : ∃ p : PostState, p.st.params.items.keys.Nodup ∧ p.st.params.numPlanets = 1 ∧
    ∀ x ∈ p.st.params.basis.words, ∀ n, 1 ≤ n → n ≤ p.st.params.numPlanets → Key.orb x n ∈ p.st.params.items.keys := by
  refine ⟨⟨⟨(Params.init (0 : ℝ) 1 .perTcEWK none).setItem .dvdt { value := 1 }, [], [], []⟩, none, none, []⟩, ?_, rfl, ?_⟩
  · show (Dict.set _ Key.dvdt _).keys.Nodup
    refine Dict.nodup_keys_set _ _ _ ?_
    rw [Params.init_keys]
    decide
  · intro x hx n h1 h2
    have hn : n = 1 := by
      have : n ≤ 1 := h2
      omega
    subst hn
    show Key.orb x 1 ∈ (Dict.set _ Key.dvdt _).keys
    rw [Dict.mem_keys_set, Params.init_keys]
    revert x
    simp only [show (Params.setItem (Params.init (0 : ℝ) 1 .perTcEWK none) .dvdt { value := 1 }).basis = .perTcEWK from rfl]
    decide

/-- C159 is violated for dictionaries that lack a parameter of their basis: loading adds it, without a value (`dflt` is Python's `None`) and free. The loop at the end of `load` that should remove
what is undefined compares the `Parameter` object itself with `None`, so it never removes anything. -/
theorem C159_missing_violated (dflt : ℝ) (p : PostState) (hn : p.st.params.items.keys.Nodup) (x : PName) (hw : x ∈ p.st.params.basis.words) (n : Nat) (h1 : 1 ≤ n)
    (h2 : n ≤ p.st.params.numPlanets) (hm : Key.orb x n ∉ p.st.params.items.keys) :
    ∃ q, p.load dflt = .ok q ∧ q.st.params.items.get? (.orb x n) = some { value := dflt, vary := .yes, mcmcscale := none, linear := false } ∧
      p.st.params.items.get? (.orb x n) = none := by
  have hnone := (Dict.get?_eq_none_iff _ _).2 hm
  refine ⟨{ p with st := { p.st with params := p.st.params.unpickle dflt } }, by unfold PostState.load; rw [load_eq], ?_, hnone⟩
  show (Dict.update _ _).get? _ = _
  rw [Dict.get?_update _ _ hn, hnone]
  have hmem : Key.orb x n ∈ defaultKeys p.st.params.numPlanets p.st.params.basis.words := (mem_defaultKeys _ _ _).2 ⟨x, n, rfl, hw, h1, h2⟩
  exact init_get dflt _ _ _ _ hmem

/-- Non-vacuity of `C159_missing_violated`: this happens after `params.basis.to_any_basis(params, 'per tc ecosw esinw k')`, which renames the basis of its argument (`inputAfter`, see C14): the
dictionary then lacks `ecosw1`. -/
example : let p := inputAfter .perTcEcoswEsinwK (Params.init (0 : ℝ) 1 .perTcSecoswSesinwK none)
    p.basis = .perTcEcoswEsinwK ∧ PName.ecosw ∈ p.basis.words ∧ p.numPlanets = 1 ∧ Key.orb .ecosw 1 ∉ p.items.keys := by
  refine ⟨by decide, by decide, rfl, ?_⟩
  show Key.orb .ecosw 1 ∉ (Params.init (0 : ℝ) 1 .perTcSecoswSesinwK none).items.keys
  rw [Params.init_keys]
  decide

/-- C159 is violated for dictionaries with an entry that is `None`: unless it is the last entry the loop of `load` raises `RuntimeError`, since the dictionary changes while it is iterated over. -/
theorem C159_none_violated {β : Type} (before : Dict Key β) (k : Key) (y : Key × Option β) (after : Dict Key (Option β)) :
    dropNone [] ((before.map fun x => (x.1, some x.2)) ++ (k, none) :: y :: after) = .error .runtimeError ∧
    dropNone [] ((before.map fun x => (x.1, some x.2)) ++ [(k, none)]) = .ok (before.map fun x => (x.1, some x.2)) := by
  have key : ∀ (kept rest : Dict Key (Option β)), dropNone kept ((before.map fun x => (x.1, some x.2)) ++ rest) = dropNone (kept ++ before.map fun x => (x.1, some x.2)) rest := by
    induction before with
    | nil => intro kept rest; simp
    | cons x t ih =>
      intro kept rest
      rw [List.map_cons, List.cons_append, dropNone, ih]
      simp
  rw [key, key]
  exact ⟨rfl, by simp [dropNone]⟩

end Radvel
