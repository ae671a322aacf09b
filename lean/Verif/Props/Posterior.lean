import Verif.Lemmas.Posterior
import Verif.Props.Params
import Verif.Props.Constraints

/-!
# C47-C49: the posterior
-/

namespace Radvel

/-- `vals` are the values of the priors at this state. -/
def PriorValues (s : VState ℝ) (priors : List Prior) (vals : List Fl) : Prop :=
  List.Forall₂ (fun (p : Prior) v => p.call s none = .ok v) priors vals

/-- The priors that only exclude or penalise regions and have no transformation of the unit cube: bounds on eccentricities, positive amplitudes, times of secondary eclipses. -/
def Prior.isConstraint : Prior → Bool
  | .ecc _ | .posK _ | .secEclipse _ _ _ => true
  | _ => false

/-- `vals` are the values of the constraints among the priors at this state, with their finite penalties. -/
def ConstraintValues (s : VState ℝ) (priors : List Prior) (vals : List Fl) : Prop :=
  List.Forall₂ (fun (p : Prior) v => p.call s (some true) = .ok v) (priors.filter Prior.isConstraint) vals

theorem isConstraint_eq : Prior.isConstraint = Prior.extraConstraint := by
  funext p
  cases p <;> rfl

/-! ## C47 -/

/-- C47: the log posterior is the sum of all priors plus the likelihood if the prior sum is finite, and the prior sum alone otherwise. -/
theorem C47_sum (like : VState ℝ → Except PyErr Fl) (s : VState ℝ) (priors : List Prior) (vals : List Fl) (h : PriorValues s priors vals) :
    (∀ x l, vals.sum = .fin x → like s = .ok l → logprob like s priors = .ok (vals.sum + l)) ∧
    ((∀ x, vals.sum ≠ .fin x) → logprob like s priors = .ok vals.sum) := by
  have h1 := priorSum_eq s priors vals h
  unfold logprob
  rw [h1]
  constructor
  · intro x l hx hl
    simp [hx, Fl.isFinite, hl]
  · intro hx
    have : vals.sum.isFinite ≠ true := fun hc => by
      obtain ⟨x, hx'⟩ := (Fl.isFinite_iff _).1 hc
      exact hx x hx'
    simp [this]

/-- C47: the order of the priors is irrelevant. -/
theorem C47_order (like : VState ℝ → Except PyErr Fl) (s : VState ℝ) (priors priors' : List Prior) (hp : priors.Perm priors')
    (vals : List Fl) (h : PriorValues s priors vals) : logprob like s priors = logprob like s priors' := by
  have key : ∀ {p q : List Prior}, p.Perm q → ∀ vals, PriorValues s p vals → ∃ vals', PriorValues s q vals' ∧ vals.Perm vals' := by
    intro p q hpq
    induction hpq with
    | nil => intro v hv; exact ⟨v, hv, List.Perm.refl _⟩
    | cons x _ ih =>
      intro v hv
      cases hv with
      | cons h1 h2 =>
        obtain ⟨v', a, b⟩ := ih _ h2
        exact ⟨_, .cons h1 a, b.cons _⟩
    | swap x y l =>
      intro v hv
      cases hv with
      | cons h1 h2 =>
        cases h2 with
        | cons h3 h4 => exact ⟨_, .cons h3 (.cons h1 h4), List.Perm.swap _ _ _⟩
    | trans _ _ ih1 ih2 =>
      intro v hv
      obtain ⟨v1, a, b⟩ := ih1 v hv
      obtain ⟨v2, c, d⟩ := ih2 v1 a
      exact ⟨v2, c, b.trans d⟩
  obtain ⟨vals', h', hv⟩ := key hp vals h
  unfold logprob
  rw [priorSum_eq s priors vals h, priorSum_eq s priors' vals' h', hv.sum_eq]

theorem sum_neg (vals : List Fl) (h : Fl.neg ∈ vals) : vals.sum = .neg ∨ vals.sum = .nan := by
  obtain ⟨a, b, rfl⟩ := List.append_of_mem h
  rw [List.sum_append, List.sum_cons, ← add_assoc, add_comm a.sum, add_assoc]
  exact Fl.neg_add _

theorem sum_fin_or_neg (vals : List Fl) (h : ∀ v ∈ vals, v = .neg ∨ ∃ x, v = .fin x) : vals.sum = .neg ∨ ∃ x, vals.sum = .fin x := by
  induction vals with
  | nil => exact Or.inr ⟨0, rfl⟩
  | cons a t ih =>
    rw [List.sum_cons]
    rcases h a (by simp) with rfl | ⟨x, rfl⟩ <;> rcases ih (fun v hv => h v (List.mem_cons_of_mem _ hv)) with h2 | ⟨y, h2⟩ <;> rw [h2]
    · exact Or.inl rfl
    · exact Or.inl rfl
    · exact Or.inl rfl
    · exact Or.inr ⟨_, rfl⟩

/-- C47: a prior of `-inf` is never rescued, whatever the other priors and the likelihood are: the result is `-inf` or nan, and
`-inf` if no prior is `+inf` or nan. The likelihood is not even evaluated (it may raise). -/
theorem C47_rejection (like : VState ℝ → Except PyErr Fl) (s : VState ℝ) (priors : List Prior) (vals : List Fl) (h : PriorValues s priors vals)
    (hn : Fl.neg ∈ vals) :
    (logprob like s priors = .ok .neg ∨ logprob like s priors = .ok .nan) ∧
    ((∀ v ∈ vals, v = .neg ∨ ∃ x, v = .fin x) → logprob like s priors = .ok .neg) := by
  have hs := sum_neg vals hn
  have h2 := (C47_sum like s priors vals h).2 (by rcases hs with h | h <;> rw [h] <;> simp)
  rw [h2]
  refine ⟨by rcases hs with h | h <;> simp [h], ?_⟩
  intro hall
  rcases hs with h3 | h3
  · rw [h3]
  · rcases sum_fin_or_neg vals hall with h4 | ⟨x, h4⟩ <;> rw [h3] at h4 <;> cases h4

/-- C47, `logprob_array` in a reachable state with a current cache: the array becomes the free parameters (state `st`, in which the dictionary is untouched), the
value is the log posterior there, and afterwards the state is the one the likelihood leaves. -/
theorem C47_array (like : LikeEval) (p : PostState) (hs : Built p.st)
    (hc : p.likeCache = none ∨ p.likeCache = some (freeRows p.st.rows)) (xs : List ℝ)
    (hx : xs.length = (p.st.rows.filter Row.vary).length) :
    ∃ l : LikeState ℝ, l.getVaryParams.2 = .ok xs ∧ l.st.params = p.st.params ∧ (∀ (i : Nat) r, p.st.rows[i]? = some r → r.vary = false → l.st.rows[i]? = some r) ∧
      (p.logprobArray like xs).2 = logprob like.value l.st p.priors ∧
      (p.logprobArray like xs).1 = { p with st := stateAfter like l.st (priorSum l.st p.priors), likeCache := l.cache } := by
  obtain ⟨l', h1, h2, h3, h4, h5⟩ := C04_set_get p.likeState hs hc xs true hx
  refine ⟨l', h2, h4 rfl, ?_, ?_, ?_⟩
  · intro i r hr hv
    obtain ⟨r', e1, _, _, _, e5⟩ := h3 i r hr
    rw [e1, e5 hv]
  · simp [PostState.logprobArray, PostState.setFast, h1]
  · simp [PostState.logprobArray, PostState.setFast, h1]

/-- Non-vacuity: two priors with values, one of them rejecting. -/
example : ∃ s, Built s ∧ PriorValues s [.posK 0, .ecc []] [.fin 0, .fin 0] := by
  obtain ⟨s, _, h2, _⟩ := onePlanetInit_built 0.5
  refine ⟨s, h2, .cons rfl (.cons ?_ .nil)⟩
  simp [Prior.call, eccCall, eccLoop, Fl.minus]

/-! ## C48 -/

/-- C48, the decision (missing: having a transform is not checked): the check succeeds exactly when every free parameter has exactly one prior whose `param` is that
parameter, and no such prior is on a parameter that is not free; otherwise it raises `ValueError`. -/
theorem C48_check_partial (priors : List Prior) (names : List Key) :
    (checkProperPriors priors names = .ok () ↔
      (∀ k ∈ names, ∃ pre p post, priors = pre ++ p :: post ∧ p.param? = some k ∧ (∀ q ∈ pre ++ post, q.param? ≠ some k)) ∧
      (∀ p ∈ priors, ∀ k, p.param? = some k → k ∈ names)) ∧
    (checkProperPriors priors names ≠ .ok () → checkProperPriors priors names = .error .valueError) := by
  constructor
  · rw [check_iff]
    refine and_congr (forall₂_congr fun k _ => ?_) Iff.rfl
    constructor
    · intro h1
      obtain ⟨p, hp⟩ := List.length_eq_one_iff.1 h1
      have hm : p ∈ withParam priors k := by rw [hp]; simp
      obtain ⟨hm1, hm2⟩ := mem_withParam.1 hm
      obtain ⟨pre, post, rfl⟩ := List.append_of_mem hm1
      refine ⟨pre, p, post, rfl, hm2, ?_⟩
      have h2 : withParam pre k ++ p :: withParam post k = [p] := by
        rw [← hp]; unfold withParam; rw [List.filter_append, List.filter_cons_of_pos (by simp [hm2])]
      have h3 : withParam pre k = [] ∧ withParam post k = [] := by
        have := congrArg List.length h2
        simp at this
        constructor <;> apply List.eq_nil_of_length_eq_zero <;> omega
      intro q hq hqk
      rcases List.mem_append.1 hq with hq | hq
      · have := mem_withParam.2 ⟨hq, hqk⟩; rw [h3.1] at this; cases this
      · have := mem_withParam.2 ⟨hq, hqk⟩; rw [h3.2] at this; cases this
    · rintro ⟨pre, p, post, rfl, h1, h2⟩
      have h3 : ∀ l : List Prior, (∀ q ∈ l, q.param? ≠ some k) → withParam l k = [] := by
        intro l hl
        apply List.filter_eq_nil_iff.2
        intro q hq; simpa using hl q hq
      have : withParam (pre ++ p :: post) k = withParam pre k ++ p :: withParam post k := by
        unfold withParam; rw [List.filter_append, List.filter_cons_of_pos (by simp [h1])]
      rw [this, h3 pre (fun q hq => h2 q (by simp [hq])), h3 post (fun q hq => h2 q (by simp [hq]))]
      rfl
  · intro h
    cases hc : checkProperPriors priors names with
    | ok u => exact absurd hc h
    | error e => rw [check_error _ _ _ hc]

/-- C48, the transform (missing: priors without a working transform pass the check): after a successful check by a posterior with current caches, with the
priors' transforms defined, `prior_transform` fills every coordinate: coordinate `j` is the transform of `u[j]` by the prior of the `j`-th name, names being in the order
of `get_vary_params`; in place and copying give the same array. -/
theorem C48_transform_partial (ppf : ℝ → ℝ) (P : PostState) (hs : Built P.st) (hc : P.postCache = some (freeRows P.st.rows))
    (names : List Key) (hnames : P.ownState.nameVaryParams.2 = .ok names) (hcheck : checkProperPriors P.priors names = .ok ())
    (htr : ∀ p ∈ P.priors, ∀ k, p.param? = some k → ∀ v, ∃ y, p.transform ppf v = .ok y)
    (u : List ℝ) (hu : u.length = names.length) :
    ∃ y vs, priorTransform ppf P.priors names false u = .ok y ∧ priorTransform ppf P.priors names true u = .ok y ∧
      P.ownState.getVaryParams.2 = .ok vs ∧ y.length = vs.length ∧
      (∀ (j : Nat) k, names[j]? = some k → ∃ a b i r, u[j]? = some a ∧ y[j]? = some b ∧
        P.st.indices.get? k = some i ∧ P.st.rows[i]? = some r ∧ vs[j]? = some r.value ∧ r.vary = true ∧
        ∃ p ∈ P.priors, p.param? = some k ∧ p.transform ppf a = .ok b) := by
  obtain ⟨hf, hx⟩ := (check_iff _ _).1 hcheck
  obtain ⟨ks, vs, a1, a2, a3, a4, _⟩ := C03_same_order_partial P.ownState hs (Or.inr hc)
  rw [hnames] at a1; cases a1
  have hex : ∀ k, ∃ p, k ∈ names → withParam P.priors k = [p] := by
    intro k
    by_cases hk : k ∈ names
    · obtain ⟨p, hp⟩ := List.length_eq_one_iff.1 (hf k hk)
      exact ⟨p, fun _ => hp⟩
    · exact ⟨.posK 0, fun h => absurd h hk⟩
  choose tr htr' using hex
  have hmem : ∀ k ∈ names, tr k ∈ P.priors ∧ (tr k).param? = some k := by
    intro k hk
    have : tr k ∈ withParam P.priors k := by rw [htr' k hk]; simp
    exact mem_withParam.1 this
  have hloop := fun inplace => transformLoop_spec ppf P.priors inplace u names tr htr'
    (fun k hk v => htr _ (hmem k hk).1 k (hmem k hk).2 v) 0 u (by omega) rfl (fun _ _ => rfl)
  obtain ⟨y, b1, b2, _, b4⟩ := hloop false
  obtain ⟨y', c1, c2, _, c4⟩ := hloop true
  have hyy : y' = y := by
    apply List.ext_getElem?
    intro j
    by_cases hj : j < names.length
    · have hk := List.getElem?_eq_getElem hj
      obtain ⟨a, b, d1, d2, d3⟩ := b4 j _ hk
      obtain ⟨a', b', e1, e2, e3⟩ := c4 j _ hk
      rw [Nat.zero_add] at *
      rw [d1] at e1; cases e1
      rw [d3] at e3; cases e3
      rw [d2, e2]
    · rw [List.getElem?_eq_none (by omega), List.getElem?_eq_none (by omega)]
  refine ⟨y, vs, b1, hyy ▸ c1, a2, by omega, ?_⟩
  intro j k hk
  obtain ⟨a, b, d1, d2, d3⟩ := b4 j k hk
  rw [Nat.zero_add] at d1 d2
  have hj : j < vs.length := by rw [← a3]; exact (List.getElem?_eq_some_iff.1 hk).1
  have hv := List.getElem?_eq_getElem hj
  obtain ⟨i, r, e1, e2, e3, e4⟩ := a4 j k _ hk hv
  have hkm := List.mem_of_getElem? hk
  exact ⟨a, b, i, r, d1, d2, e1, e2, by rw [hv, e4], e3, tr k, (hmem k hkm).1, (hmem k hkm).2, d3⟩

/-- Transforms are defined for all but four kinds of prior. -/
theorem C48_transformable (ppf : ℝ → ℝ) (p : Prior) (k : Key) (hk : p.param? = some k) (v : ℝ) :
    (∃ y, p.transform ppf v = .ok y) ∨ (∃ B D, p = .baseline k B D) ∨
      (∃ a b, p = .hardBounds k a b ∧ ((∀ x, a ≠ .fin x) ∨ (∀ x, b ≠ .fin x))) := by
  cases p with
  | hardBounds k' a b =>
    simp only [Prior.param?, Option.some.injEq] at hk
    subst hk
    cases a <;> cases b <;> simp [Prior.transform]
  | baseline k' B D =>
    simp only [Prior.param?, Option.some.injEq] at hk
    subst hk
    exact Or.inr (Or.inl ⟨B, D, rfl⟩)
  | _ => first | exact Or.inl ⟨_, rfl⟩ | simp [Prior.param?] at hk

/-- C48 in full is false: `InformativeBaselinePrior` and infinite `HardBounds` pass the check but their transform raises. -/
theorem C48_no_transform_violated (ppf : ℝ → ℝ) (k : Key) (B D : ℝ) (u : ℝ) :
    checkProperPriors [.baseline k B D] [k] = .ok () ∧
    priorTransform ppf [.baseline k B D] [k] false [u] = .error .notImplementedError ∧
    checkProperPriors [.hardBounds k (.fin 0) .pos] [k] = .ok () ∧
    priorTransform ppf [.hardBounds k (.fin 0) .pos] [k] false [u] = .error .valueError := by
  refine ⟨?_, ?_, ?_, ?_⟩
  · rw [check_iff]; simp [withParam, Prior.param?]
  · simp [priorTransform, transformLoop, transformStep, getPriorDict, Prior.param?, Dict.set, Prior.extraConstraint, Prior.transform]
  · rw [check_iff]; simp [withParam, Prior.param?]
  · simp [priorTransform, transformLoop, transformStep, getPriorDict, Prior.param?, Dict.set, Prior.extraConstraint, Prior.transform]

/-- C48 in full is false: a `NumericalPrior` or `UserDefinedPrior` with a transform is the only prior of a free parameter, yet the check raises. -/
theorem C48_unrecognised_violated (ppf : ℝ → ℝ) (k : Key) (f : List ℝ → Fl) (inv : ℝ → ℝ) :
    (∀ u, ∃ y, (Prior.numerical [k] f inv).transform ppf u = .ok y) ∧ checkProperPriors [.numerical [k] f inv] [k] = .error .valueError ∧
    (∀ u, ∃ y, (Prior.user [k] f (some inv)).transform ppf u = .ok y) ∧ checkProperPriors [.user [k] f (some inv)] [k] = .error .valueError := by
  refine ⟨fun u => ⟨_, rfl⟩, ?_, fun u => ⟨_, rfl⟩, ?_⟩ <;>
  · apply (C48_check_partial _ _).2
    rw [Ne, check_iff]
    simp [withParam, Prior.param?]

/-- Non-vacuity: two priors on two free parameters plus a constraint. -/
example : checkProperPriors [.gaussian (.orb .per 1) 10 1, .ecc [(1, 0.99)], .jeffreys (.orb .k 1) 1 100] [.orb .per 1, .orb .k 1] = .ok () := by
  rw [check_iff]; simp [withParam, Prior.param?]

/-! ## C49 -/

/-- C49, provable part (missing: `SecondaryEclipsePrior`, `NumericalPrior`, `UserDefinedPrior`, for which it is false): at a point where the constraints are
satisfied, with a finite likelihood, the log posterior is the nested sampling likelihood plus the log densities of the priors with a parameter. -/
theorem C49_same_target_partial (like : VState ℝ → Except PyErr Fl) (s : VState ℝ) (priors : List Prior)
    (hcls : ∀ p ∈ priors, p.param?.isSome = true ∨ p.takesFinite = true)
    (hcon : ∀ p ∈ priors, p.takesFinite = true → ∃ c, p.call s none = .ok (.fin c))
    (dens : List Fl) (hdens : PriorValues s (priors.filter (fun p => p.param?.isSome)) dens) (l : ℝ) (hl : like s = .ok (.fin l)) :
    ∃ ns, likelihoodNs like s priors = .ok ns ∧ logprob like s priors = .ok (ns + dens.sum) := by
  have hboth : ∀ p : Prior, p.takesFinite = true → p.extraConstraint = true ∧ p.param? = none := by
    intro p; cases p <;> simp [Prior.takesFinite, Prior.extraConstraint, Prior.param?]
  -- values of all priors and of the constraints
  have key : ∀ (priors : List Prior) (dens : List Fl), (∀ p ∈ priors, p.param?.isSome = true ∨ p.takesFinite = true) →
      (∀ p ∈ priors, p.takesFinite = true → ∃ c, p.call s none = .ok (.fin c)) →
      PriorValues s (priors.filter (fun p => p.param?.isSome)) dens →
      ∃ (vals : List Fl) (cons : List ℝ), PriorValues s priors vals ∧
        List.Forall₂ (fun (p : Prior) v => p.call s (some true) = .ok v) (priors.filter Prior.extraConstraint) (cons.map Fl.fin) ∧
        vals.sum = .fin cons.sum + dens.sum := by
    intro priors
    induction priors with
    | nil => intro dens _ _ h; cases h; exact ⟨[], [], .nil, .nil, by simp⟩
    | cons p t ih =>
      intro dens h1 h2 h3
      have h1' : ∀ q ∈ t, q.param?.isSome = true ∨ q.takesFinite = true := fun q hq => h1 q (List.mem_cons_of_mem _ hq)
      have h2' : ∀ q ∈ t, q.takesFinite = true → ∃ c, q.call s none = .ok (.fin c) := fun q hq => h2 q (List.mem_cons_of_mem _ hq)
      by_cases hp : p.param?.isSome = true
      · rw [List.filter_cons_of_pos (p := fun p : Prior => p.param?.isSome) hp] at h3
        cases h3 with
        | cons a b =>
          obtain ⟨vals, cons, e1, e2, e3⟩ := ih _ h1' h2' b
          obtain ⟨k, hk⟩ := Option.isSome_iff_exists.1 hp
          refine ⟨_ :: vals, cons, .cons a e1, ?_, ?_⟩
          · rw [List.filter_cons_of_neg (by rw [extra_of_param hk]; simp)]; exact e2
          · rw [List.sum_cons, List.sum_cons, e3, add_left_comm]
      · have hf : p.takesFinite = true := (h1 p (by simp)).resolve_left hp
        rw [List.filter_cons_of_neg (p := fun p : Prior => p.param?.isSome) hp] at h3
        obtain ⟨vals, cons, e1, e2, e3⟩ := ih _ h1' h2' h3
        obtain ⟨c, hc⟩ := h2 p (by simp) hf
        refine ⟨.fin c :: vals, c :: cons, .cons hc e1, ?_, ?_⟩
        · rw [List.filter_cons_of_pos (hboth p hf).1, List.map_cons]
          exact .cons (call_finite hf hc) e2
        · rw [List.sum_cons, List.sum_cons, e3, ← add_assoc, Fl.fin_add_fin]
  obtain ⟨vals, cons, e1, e2, e3⟩ := key priors dens hcls hcon hdens
  have hex := extraLikelihood_eq s priors _ e2
  rw [Fl.sum_map_fin] at hex
  refine ⟨.fin cons.sum + .fin l, ?_, ?_⟩
  · simp [likelihoodNs, hex, Fl.isFinite, hl]
  · obtain ⟨f1, f2⟩ := C47_sum like s priors vals e1
    by_cases hfin : ∃ x, vals.sum = .fin x
    · obtain ⟨x, hx⟩ := hfin
      rw [f1 x _ hx hl, e3, add_assoc, add_assoc, add_comm dens.sum]
    · rw [f2 (fun x hx => hfin ⟨x, hx⟩)]
      congr 1
      rw [e3] at hfin ⊢
      rw [add_assoc]
      revert hfin
      cases dens.sum with
      | fin y => intro h; exact absurd ⟨_, rfl⟩ h
      | pos => intro _; rfl
      | neg => intro _; rfl
      | nan => intro _; rfl

/-- C49, at a point where some constraint is violated: MCMC sees `-inf` (or nan), nested sampling a penalty of `1e100` for each violated constraint. -/
theorem C49_rejected_partial (like : VState ℝ → Except PyErr Fl) (s : VState ℝ) (priors : List Prior)
    (hlim : ∀ pairs, Prior.ecc pairs ∈ priors → ∀ q ∈ pairs, 0 < q.2)
    (hcon : ∀ p ∈ priors, p.extraConstraint = true → p.takesFinite = true ∧ ((∃ c, p.call s none = .ok (.fin c)) ∨ p.call s none = .ok .neg))
    (hbad : ∃ p ∈ priors, p.extraConstraint = true ∧ p.call s none = .ok .neg) (l : ℝ) (hl : like s = .ok (.fin l)) :
    (∀ vals, PriorValues s priors vals → logprob like s priors = .ok .neg ∨ logprob like s priors = .ok .nan) ∧
    ∃ (m : Nat) (c : ℝ), 1 ≤ m ∧ likelihoodNs like s priors = .ok (.fin (-1e100 * m + c + l)) ∧
      ∃ good : List ℝ, c = good.sum ∧ ∀ x ∈ good, ∃ p ∈ priors, p.call s none = .ok (.fin x) := by
  constructor
  · intro vals hv
    obtain ⟨p, hp, _, hn⟩ := hbad
    have : Fl.neg ∈ vals := by
      clear hcon hlim
      induction hv with
      | nil => simp at hp
      | cons a b ih =>
        rcases List.mem_cons.1 hp with rfl | hp
        · rw [hn] at a; cases a; simp
        · exact List.mem_cons_of_mem _ (ih hp)
    exact (C47_rejection like s priors vals hv this).1
  · have key : ∀ t : List Prior, (∀ p ∈ t, p ∈ priors) → ∃ (vals : List ℝ) (m : Nat) (good : List ℝ),
        List.Forall₂ (fun (p : Prior) v => p.call s (some true) = .ok v) (t.filter Prior.extraConstraint) (vals.map Fl.fin) ∧
        vals.sum = -1e100 * m + good.sum ∧ (∀ x ∈ good, ∃ p ∈ priors, p.call s none = .ok (.fin x)) ∧
        ((∃ p ∈ t, p.extraConstraint = true ∧ p.call s none = .ok .neg) → 1 ≤ m) := by
      intro t
      induction t with
      | nil => intro _; exact ⟨[], 0, [], .nil, by simp, by simp, by simp⟩
      | cons p t ih =>
        intro hsub
        obtain ⟨vals, m, good, e1, e2, e3, e4⟩ := ih (fun q hq => hsub q (List.mem_cons_of_mem _ hq))
        have hpm := hsub p (by simp)
        by_cases hp : p.extraConstraint = true
        · obtain ⟨hf, hc⟩ := hcon p hpm hp
          rcases hc with ⟨c, hc⟩ | hc
          · refine ⟨c :: vals, m, c :: good, ?_, ?_, ?_, ?_⟩
            · rw [List.filter_cons_of_pos hp, List.map_cons]; exact .cons (call_finite hf hc) e1
            · rw [List.sum_cons, List.sum_cons, e2]; ring
            · intro x hx
              rcases List.mem_cons.1 hx with rfl | hx
              · exact ⟨p, hpm, hc⟩
              · exact e3 x hx
            · rintro ⟨q, hq, hq1, hq2⟩
              rcases List.mem_cons.1 hq with rfl | hq
              · rw [hc] at hq2; cases hq2
              · exact e4 ⟨q, hq, hq1, hq2⟩
          · refine ⟨-1e100 :: vals, m + 1, good, ?_, ?_, e3, fun _ => by omega⟩
            · rw [List.filter_cons_of_pos hp, List.map_cons]
              refine .cons (call_rejected hf ?_ hc) e1
              intro pairs he; exact hlim pairs (he ▸ hpm)
            · rw [List.sum_cons, e2]; push_cast; ring
        · refine ⟨vals, m, good, ?_, e2, e3, ?_⟩
          · rw [List.filter_cons_of_neg hp]; exact e1
          · rintro ⟨q, hq, hq1, hq2⟩
            rcases List.mem_cons.1 hq with rfl | hq
            · exact absurd hq1 hp
            · exact e4 ⟨q, hq, hq1, hq2⟩
    obtain ⟨vals, m, good, e1, e2, e3, e4⟩ := key priors (fun _ h => h)
    refine ⟨m, good.sum, e4 hbad, ?_, good, rfl, e3⟩
    have hex := extraLikelihood_eq s priors _ e1
    rw [Fl.sum_map_fin] at hex
    simp only [likelihoodNs, hex, Fl.isFinite, if_true, hl, Fl.fin_add_fin, e2]

/-- C49 in full is false: a `SecondaryEclipsePrior` is accepted by the check, but every nested sampling likelihood then raises `TypeError`, in every state. -/
theorem C49_eclipse_violated (like : VState ℝ → Except PyErr Fl) (s : VState ℝ) (k : Key) (a b ts err : ℝ) (n : Nat) :
    checkProperPriors [.jeffreys k a b, .secEclipse n ts err] [k] = .ok () ∧
    likelihoodNs like s [.jeffreys k a b, .secEclipse n ts err] = .error .typeError := by
  constructor
  · rw [check_iff]; simp [withParam, Prior.param?]
  · simp [likelihoodNs, extraLikelihood, extraStep, Prior.extraConstraint, Prior.call, Prior.takesFinite, bind, Except.bind]

/-- C49 in full is false: a `NumericalPrior` or `UserDefinedPrior` beside an accepted prior is used by MCMC and ignored by nested sampling. -/
theorem C49_ignored_violated (like : VState ℝ → Except PyErr Fl) (s : VState ℝ) (k k' : Key) (x x' : ℝ) (hx : readPar s k = .ok x) (hx' : readPar s k' = .ok x')
    (mu sigma : ℝ) (hs : sigma ≠ 0) (l c : ℝ) (hl : like s = .ok (.fin l)) (hc : c ≠ 0) (inv : Option (ℝ → ℝ)) :
    let pr : List Prior := [.gaussian k mu sigma, .user [k'] (fun _ => .fin c) inv]
    checkProperPriors pr [k] = .ok () ∧ ∃ d, (Prior.gaussian k mu sigma).call s none = .ok (.fin d) ∧
      likelihoodNs like s pr = .ok (.fin l) ∧ logprob like s pr = .ok (.fin (l + d + c)) ∧ l + d + c ≠ l + d := by
  refine ⟨by rw [check_iff]; simp [withParam, Prior.param?],
    -0.5 * ((x - mu) / sigma) ^ 2 - 0.5 * Real.log (sigma ^ 2 * 2 * Real.pi), ?_, ?_, ?_, by simpa using hc⟩
  · simp only [Prior.call, hx, Prior.logpdf1, gaussianLogpdf, hs]
    rfl
  · simp [likelihoodNs, extraLikelihood, extraStep, Prior.extraConstraint, bind, Except.bind, pure, Except.pure, Fl.isFinite, hl]
  · have := (C47_sum like s [.gaussian k mu sigma, .user [k'] (fun _ => .fin c) inv]
      [.fin (-0.5 * ((x - mu) / sigma) ^ 2 - 0.5 * Real.log (sigma ^ 2 * 2 * Real.pi)), .fin c] (.cons (by
        simp only [Prior.call, hx, Prior.logpdf1, gaussianLogpdf, hs]
        rfl) (.cons (by simp [Prior.call, readPars, hx']) .nil))).1 _ _ rfl hl
    rw [this]
    simp only [List.sum_cons, List.sum_nil, Fl.zero_def, Fl.fin_add_fin]
    congr 2
    ring

/-- Non-vacuity of C49: a reachable state, priors of both kinds, the constraint satisfied. -/
example : ∃ s, Built s ∧ (∀ p ∈ [Prior.posK 0, .gaussian (.orb .per 1) 1 1], p.param?.isSome = true ∨ p.takesFinite = true) ∧
    (∀ p ∈ [Prior.posK 0, .gaussian (.orb .per 1) 1 1], p.takesFinite = true → ∃ c, p.call s none = .ok (.fin c)) := by
  obtain ⟨s, _, h2, _⟩ := onePlanetInit_built 0.5
  refine ⟨s, h2, ?_, ?_⟩
  · simp [Prior.param?, Prior.takesFinite]
  · intro p hp ht
    simp at hp
    rcases hp with rfl | rfl
    · exact ⟨0, rfl⟩
    · simp [Prior.takesFinite] at ht

end Radvel
