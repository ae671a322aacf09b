import Verif.Lemmas.FileModel
import Verif.Props.Draw

/-!
# C154: the posterior that a setup file defines

From the file to the number that samplers and optimisers see.
-/

namespace Radvel

open Real ProbabilityTheory

theorem rowsDensity_white (rows : List DataRow) (m : ℝ → ℝ) (jit γ : ℝ) : rowsDensity rows m jit γ = whiteDensity (rows.map DataRow.obs) m jit γ := by
  unfold rowsDensity whiteDensity
  rw [List.map_map]
  rfl

/-- The value of one likelihood of the file after writing an array. -/
theorem fileLike_value {P : SetupFile} (hu : UserParams P.params) {s s' : VState ℝ} (hs : VState.init P.params = .ok s) (xs : List ℝ) (hs' : VState.init (withFree P.params xs) = .ok s')
    {i : String} {L : RVLike} (hL : FileLike P s i L) (hg : Key.inst .gamma ("_" ++ i) ∈ P.params.items.keys) (hj : Key.inst .jit ("_" ++ i) ∈ P.params.items.keys)
    (hne : ∃ d ∈ P.data, d.tel = i) (hb : Built { s with rows := s'.rows }) (hon : L.On { s with rows := s'.rows })
    (orb : Nat → Synth) (ho : Elements (withFree P.params xs) orb) (drive : Drive) (tb : ℝ) (v : Nat → ℝ → ℝ)
    (hv : ∀ d ∈ P.data, d.tel = i → ∀ m, 1 ≤ m → m ≤ P.params.numPlanets → drive d.t (orb m) = some (v m d.t))
    (he : ∀ d ∈ P.data, d.tel = i → d.err ≠ 0 ∨ valueAt P.params xs (.inst .jit ("_" ++ i)) ≠ 0) :
    ∃ l, LikeEval.value (L.logprob fun s t => modelCall drive tb s none t) { s with rows := s'.rows } = .ok (.fin l) ∧ exp l = instDensity P xs (fileVelocity P.params xs tb v) i := by
  have hu' := withFree_user hu xs
  have hsame := written_same hu xs hs hs'
  obtain ⟨-, l1, l2, l3⟩ := hL
  have hrows : P.rowsOf i = P.data.filter fun r => r.tel = i := by
    unfold SetupFile.rowsOf
    apply List.filter_congr
    intro r _
    by_cases h : r.tel = i <;> simp [h]
  have hmem : ∀ o ∈ L.obs, ∃ d ∈ P.data, d.tel = i ∧ o = d.obs := by
    intro o hm
    rw [l1, hrows] at hm
    obtain ⟨d, h1, h2⟩ := List.mem_map.1 hm
    obtain ⟨h3, h4⟩ := List.mem_filter.1 h1
    exact ⟨d, h3, by simpa using h4, h2.symm⟩
  have hm : ModelIs (fun s t => modelCall drive tb s none t) L { s with rows := s'.rows } (fileVelocity P.params xs tb v) := by
    intro o hm
    obtain ⟨d, d1, d2, rfl⟩ := hmem o hm
    simp only
    rw [modelCall_congr drive tb s' _ none _ hsame.rows hsame.indices hsame.basis hsame.planets]
    have := C25_sum (withFree P.params xs) hu' orb ho drive tb d.t (fun m => v m d.t) (fun m hm => hv d d1 d2 m hm.1 hm.2)
    unfold curve at this
    rw [hs'] at this
    simp only at this
    show modelCall drive tb s' none d.t = _
    rw [this]
    have htr : ∀ k, trendOf (withFree P.params xs) k = valueAt P.params xs k := by
      intro k
      unfold trendOf
      rw [withFree_get?]
      unfold valueAt isFree
      cases P.params.items.get? k <;> simp
    rw [htr, htr]
    rfl
  have rj : readPar { s with rows := s'.rows } (.inst .jit L.suffix) = .ok (valueAt P.params xs (.inst .jit ("_" ++ i))) := by
    rw [readPar_same hsame, l2]
    exact withFree_read hu xs hs' hj
  have rg : readPar { s with rows := s'.rows } (.inst .gamma L.suffix) = .ok (valueAt P.params xs (.inst .gamma ("_" ++ i))) := by
    rw [readPar_same hsame, l2]
    exact withFree_read hu xs hs' hg
  have hana : AnalyticGamma { s with rows := s'.rows } L.gammaIdx ↔ Marginalised P.params (.inst .gamma ("_" ++ i)) := by
    have h1 : AnalyticGamma { s with rows := s'.rows } L.gammaIdx ↔ AnalyticGamma s' L.gammaIdx := by
      unfold AnalyticGamma
      rw [hsame.rows, hsame.indices]
    have h2 := hon.gamma
    rw [hsame.indices, l2] at h2
    rw [h1, marginal_iff hu' hs' h2 (by rw [withFree_keys]; exact hg), withFree_marginal]
  have herr : ∀ o ∈ L.obs, o.err ≠ 0 ∨ valueAt P.params xs (.inst .jit ("_" ++ i)) ≠ 0 := by
    intro o hm
    obtain ⟨d, d1, d2, rfl⟩ := hmem o hm
    exact he d d1 d2
  unfold instDensity
  simp only [rowsDensity_white]
  rw [← hrows, ← l1]
  by_cases ha : Marginalised P.params (.inst .gamma ("_" ++ i))
  · rw [if_pos ha]
    have hno : L.obs ≠ [] := by
      obtain ⟨d, d1, d2⟩ := hne
      rw [l1, hrows]
      intro hc
      have : d ∈ P.data.filter fun r => r.tel = i := List.mem_filter.2 ⟨d1, by simpa using d2⟩
      rw [List.map_eq_nil_iff] at hc
      rw [hc] at this
      cases this
    obtain ⟨t, l, γ, c1, c2, -⟩ := C27_marginal_partial _ L _ hb hon _ hm _ rj (hana.2 ha) l3 hno herr
    exact ⟨l, by unfold LikeEval.value; rw [c1], c2⟩
  · rw [if_neg ha]
    obtain ⟨l, c1, c2⟩ := C26_product _ L _ hb hon _ hm _ _ rg rj (fun h => ha (hana.1 h)) l3 herr
    exact ⟨l, by unfold LikeEval.value; rw [c1], c2⟩

theorem sum_fin_list (ls : List ℝ) : (ls.map Fl.fin).sum = .fin ls.sum := by
  induction ls with
  | nil => rfl
  | cons a t ih => simp only [List.map_cons, List.sum_cons, ih]; rfl

theorem exists_values {f : String → RVLike → ℝ → Prop} {d : String → ℝ} : ∀ {is : List String} {Ls : List RVLike}, List.Forall₂ (fun i L => ∃ l, f i L l ∧ exp l = d i) is Ls →
    ∃ ls : List ℝ, List.Forall₂ (fun (L : RVLike) l => ∃ i ∈ is, f i L l) Ls ls ∧ exp ls.sum = (is.map d).prod
  | _, _, .nil => ⟨[], .nil, by simp⟩
  | _, _, .cons ⟨l, h1, h2⟩ t => by
    obtain ⟨ls, h3, h4⟩ := exists_values t
    refine ⟨l :: ls, .cons ⟨_, List.mem_cons_self, h1⟩ (h3.imp fun _ _ ⟨i, hi, h⟩ => ⟨i, List.mem_cons_of_mem _ hi, h⟩), ?_⟩
    simp [exp_add, h2, h4]

/-- What both ways of evaluating the posterior of a file come to. -/
theorem file_posterior (dflt : ℝ) (P : SetupFile) (hu : UserParams P.params) (hj : ∀ k, Key.inst .logjit k ∉ P.params.items.keys) (hh : P.hnames = none)
    (r : SetupPost) (hr : P.initialize dflt false = .ok r) (p : PostState) (hp : PostState.init ⟨r.st, none⟩ = .ok p) (priors : List Prior) (hq : ∀ q ∈ priors, q.OfFile P.params)
    (drive : Drive) (tb : ℝ) (Ls : List RVLike) (hL : r.likes.map Prod.snd = Ls.map InstLike.rv) (calls : List PostCall)
    (xs : List ℝ) (hx : xs.length = (freeOrder P.params).length) (orb : Nat → Synth) (ho : Elements (withFree P.params xs) orb) (v : Nat → ℝ → ℝ)
    (hv : ∀ d ∈ P.data, d.tel ∈ P.instnames → ∀ m, 1 ≤ m → m ≤ P.params.numPlanets → drive d.t (orb m) = some (v m d.t))
    (he : ∀ d ∈ P.data, d.tel ∈ P.instnames → d.err ≠ 0 ∨ valueAt P.params xs (.inst .jit ("_" ++ d.tel)) ≠ 0)
    (s' : VState ℝ) (hs' : VState.init (withFree P.params xs) = .ok s') :
    let like := compositeLogprob (Ls.map fun L => L.logprob fun s t => modelCall drive tb s none t)
    let q := { p with priors := priors }.runAll like calls
    ∃ s2 l, SameVector s' s2 ∧ (q.logprobArray like xs).2 = logprob (LikeEval.value like) s2 priors ∧ (q.likelihoodNsArray like xs).2 = likelihoodNs (LikeEval.value like) s2 priors ∧
      LikeEval.value like s2 = .ok (.fin l) ∧ exp l = ((firsts P.instnames).map (instDensity P xs (fileVelocity P.params xs tb v))).prod := by
  intro like q
  obtain ⟨hs, hkeys, Ls', b1, b2, b3⟩ := initialize_white hu hj hh hr
  have hLs : Ls' = Ls := by
    rw [hL] at b1
    exact (List.map_injective_iff.2 (fun _ _ h => by cases h; rfl) b1).symm
  subst hLs
  have hp' : p = { st := r.st, likeCache := none, postCache := some (freeRows r.st.rows), priors := [] } := by
    unfold PostState.init at hp
    rw [(init_inv hs).1] at hp
    cases hp
    rfl
  have hpst : r.st.params = P.params := by
    obtain ⟨t, a1, a2, a3, a4, a5⟩ := hu.model
    rw [hs] at a1; cases a1
    exact a4
  have hmod := modelCall_orbital drive tb
  -- history
  have hhist := (C34_history_partial (fun s t => modelCall drive tb s none t) hmod Ls' { p with priors := priors } (by rw [hp']; exact b3) (by rw [hp']; exact .inl rfl)
    (by
      intro q hqm
      obtain ⟨q1, q2, q3⟩ := hq q hqm
      rw [hp']
      refine ⟨by simp only [hpst]; exact q1, by simp only [hpst]; exact q2, ?_⟩
      intro suffix i hk hi ha
      rcases q1 _ hk with h | h | h
      · exact q3 suffix hk ((marginal_iff hu hs hi h).1 ha)
      · cases h
      · cases h) calls xs)
  -- the array
  have hw := write_file hu xs hx hs hs'
  set s2 : VState ℝ := { r.st with rows := s'.rows } with hs2
  have hset : (q.logprobArray like xs).2 = logprob (LikeEval.value like) s2 priors ∧ (q.likelihoodNsArray like xs).2 = likelihoodNs (LikeEval.value like) s2 priors := by
    refine ⟨hhist.1.trans ?_, hhist.2.trans ?_⟩
    · rw [hp']
      simp only [PostState.logprobArray, PostState.setFast, PostState.likeState, LikeState.setVaryParams, LikeState.refreshFor, LikeState.listVaryParams, Option.getD_some, hw, if_true]
      rfl
    · rw [hp']
      simp only [PostState.likelihoodNsArray, PostState.setFast, PostState.likeState, LikeState.setVaryParams, LikeState.refreshFor, LikeState.listVaryParams, Option.getD_some, hw, if_true]
      rfl
  have hsame := written_same hu xs hs hs'
  have hlen : s'.rows.length = r.st.rows.length := by
    have h1 := (file_rows hu hs).1
    have h2 := (file_rows (withFree_user hu xs) hs').1
    rw [withFree_order] at h2
    rw [h1, h2]
  have hb3 : Likes s2 Ls' := .write _ _ _ b3 hlen
  obtain ⟨hbuilt, hon⟩ := hb3.built
  have hfirst : ∀ i ∈ firsts P.instnames, i ∈ P.instnames := fun i hi => (mem_firsts _ _).1 hi
  have hall : List.Forall₂ (fun i L => ∃ l, LikeEval.value (L.logprob fun s t => modelCall drive tb s none t) s2 = .ok (.fin l) ∧
      exp l = instDensity P xs (fileVelocity P.params xs tb v) i) (firsts P.instnames) Ls' := by
    have hbas : P.params.basis = P.fittingBasis := by
      by_contra hc
      unfold SetupFile.initialize at hr
      rw [if_pos hc] at hr
      cases hr
    have hex := (C119_exactly dflt P false ⟨hu, hbas, hj, by simp⟩ hh).1 ⟨r, hr⟩
    have key : ∀ (is : List String) (Ms : List RVLike), (∀ i ∈ is, i ∈ P.instnames) → (∀ L ∈ Ms, L.On s2) → List.Forall₂ (fun i L => FileLike P r.st i L) is Ms →
        List.Forall₂ (fun i L => ∃ l, LikeEval.value (L.logprob fun s t => modelCall drive tb s none t) s2 = .ok (.fin l) ∧
          exp l = instDensity P xs (fileVelocity P.params xs tb v) i) is Ms := by
      intro is Ms h1 h2 h3
      induction h3 with
      | nil => exact .nil
      | cons h4 _ ih =>
        refine .cons ?_ (ih (fun i hi => h1 i (List.mem_cons_of_mem _ hi)) (fun L hL => h2 L (List.mem_cons_of_mem _ hL)))
        have hi := h1 _ List.mem_cons_self
        exact fileLike_value hu hs xs hs' h4 (hkeys _ hi).1 (hkeys _ hi).2 (hex.2 _ hi).1 hbuilt (h2 _ List.mem_cons_self) orb ho drive tb v
          (fun d d1 d2 => hv d d1 (by rw [d2]; exact hi)) (fun d d1 d2 => by rw [← d2]; exact he d d1 (by rw [d2]; exact hi))
    exact key _ _ hfirst hon b2
  obtain ⟨ls, h1, h2⟩ := exists_values (f := fun _ L l => LikeEval.value (L.logprob fun s t => modelCall drive tb s none t) s2 = .ok (.fin l)) hall
  have h3 : List.Forall₂ (fun (L : RVLike) w => LikeEval.value (L.logprob fun s t => modelCall drive tb s none t) s2 = .ok w) Ls' (ls.map Fl.fin) := by
    rw [List.forall₂_map_right_iff]
    exact h1.imp fun _ _ ⟨_, _, h⟩ => h
  have h4 := C28_sum _ hmod s2 Ls' hb3 _ h3
  rw [sum_fin_list] at h4
  exact ⟨s2, ls.sum, hsame, hset.1, hset.2, h4, h2⟩

/-- C154 (missing: decorrelation (`C154_decorr_partial`), Gaussian processes (C155), `logjit` parameters (`C154_logjit_partial`), and orbits that the Kepler solver does not solve): take any setup file, the posterior made from it
with any priors on its parameters, and anything that was asked of the posterior before. Then `logprob_array(xs)` is the sum of the priors, evaluated in the model of the file with the values
`xs`, and the logarithm of the density of the file's velocities: every instrument's observations are independent and normal around the planets' velocities, the trend and the instrument's
offset, with variance error² + jitter², and integrated over the offset if it is linear and fixed. The values of the free parameters are read from `xs` in the documented order, all others from
the file. -/
theorem C154_posterior_partial (dflt : ℝ) (P : SetupFile) (hu : UserParams P.params) (hj : ∀ k, Key.inst .logjit k ∉ P.params.items.keys) (hh : P.hnames = none)
    (r : SetupPost) (hr : P.initialize dflt false = .ok r) (p : PostState) (hp : PostState.init ⟨r.st, none⟩ = .ok p) (priors : List Prior) (hq : ∀ q ∈ priors, q.OfFile P.params)
    (drive : Drive) (tb : ℝ) (Ls : List RVLike) (hL : r.likes.map Prod.snd = Ls.map InstLike.rv) (calls : List PostCall)
    (xs : List ℝ) (hx : xs.length = (freeOrder P.params).length) (orb : Nat → Synth) (ho : Elements (withFree P.params xs) orb) (v : Nat → ℝ → ℝ)
    (hv : ∀ d ∈ P.data, d.tel ∈ P.instnames → ∀ m, 1 ≤ m → m ≤ P.params.numPlanets → drive d.t (orb m) = some (v m d.t))
    (he : ∀ d ∈ P.data, d.tel ∈ P.instnames → d.err ≠ 0 ∨ valueAt P.params xs (.inst .jit ("_" ++ d.tel)) ≠ 0)
    (s' : VState ℝ) (hs' : VState.init (withFree P.params xs) = .ok s') (vals : List Fl) (hvals : PriorValues s' priors vals) :
    let like := compositeLogprob (Ls.map fun L => L.logprob fun s t => modelCall drive tb s none t)
    let result := (({ p with priors := priors }.runAll like calls).logprobArray like xs).2
    (∀ x, vals.sum = .fin x → ∃ l, result = .ok (.fin (x + l)) ∧ exp l = ((firsts P.instnames).map (instDensity P xs (fileVelocity P.params xs tb v))).prod) ∧
    ((∀ x, vals.sum ≠ .fin x) → result = .ok vals.sum) := by
  intro like result
  obtain ⟨s2, l, hsame, h1, h2, h3, h4⟩ := file_posterior dflt P hu hj hh r hr p hp priors hq drive tb Ls hL calls xs hx orb ho v hv he s' hs'
  have hpv : PriorValues s2 priors vals := by
    refine hvals.imp ?_
    intro q w hqw
    rw [Prior.call_same hsame]
    exact hqw
  obtain ⟨c1, c2⟩ := C47_sum (LikeEval.value like) s2 priors vals hpv
  rw [show result = _ from h1]
  refine ⟨fun x hxs => ⟨l, ?_, h4⟩, fun hn => c2 hn⟩
  rw [c1 x _ hxs h3, hxs]
  rfl

/-- Non-vacuity: a file with a planet and two instruments, one of them with a marginalised offset, and a prior. -/
example (drive : Drive) (v : Nat → ℝ → ℝ) (hd : ∀ t o, drive t o = some (v 1 t)) : ∃ (P : SetupFile) (r : SetupPost) (p : PostState) (Ls : List RVLike) (xs : List ℝ) (s' : VState ℝ) (orb : Nat → Synth) (c : ℝ),
    UserParams P.params ∧ (∀ k, Key.inst .logjit k ∉ P.params.items.keys) ∧ P.hnames = none ∧ P.initialize 0 false = .ok r ∧ PostState.init ⟨r.st, none⟩ = .ok p ∧
    Prior.OfFile P.params (.gaussian (.orb .k 1) 5 1) ∧ r.likes.map Prod.snd = Ls.map InstLike.rv ∧ xs.length = (freeOrder P.params).length ∧ Elements (withFree P.params xs) orb ∧
    (∀ d ∈ P.data, d.tel ∈ P.instnames → ∀ m, 1 ≤ m → m ≤ P.params.numPlanets → drive d.t (orb m) = some (v m d.t)) ∧
    (∀ d ∈ P.data, d.tel ∈ P.instnames → d.err ≠ 0 ∨ valueAt P.params xs (.inst .jit ("_" ++ d.tel)) ≠ 0) ∧ VState.init (withFree P.params xs) = .ok s' ∧
    PriorValues s' [.gaussian (.orb .k 1) 5 1] [.fin c] ∧ Marginalised P.params (.inst .gamma "_j") ∧ ¬ Marginalised P.params (.inst .gamma "_k") := by
  have hP := exampleSetup_ready ["j", "k"] none false
  obtain ⟨r, h1, -⟩ := C119_ready 0 (exampleSetup ["j", "k"] none) false hP (by simp [exampleSetup]) (fun i hi => exampleSetup_inst _ _ i (by simpa [exampleSetup] using hi) (by simp))
  obtain ⟨a1, a2, Ls, a3, a4, a5⟩ := initialize_white hP.user hP.nologjit rfl h1
  set xs : List ℝ := (freeOrder (exampleSetup ["j", "k"] none).params).map fun _ => 1 with hxs
  obtain ⟨s', b1, b2, b3, b4, b5⟩ := (withFree_user hP.user xs).model
  have hk : Key.orb .k 1 ∈ (exampleSetup ["j", "k"] none).params.items.keys := by
    change _ ∈ exampleSetupParams.items.keys
    rw [exampleSetup_keys]
    simp
  have hval : ∃ c, Prior.call s' none (.gaussian (.orb .k 1) 5 1) = .ok (.fin c) := by
    simp only [Prior.call, withFree_read hP.user xs b1 hk, Prior.logpdf1, gaussianLogpdf]
    simp
  obtain ⟨c, hc⟩ := hval
  refine ⟨exampleSetup ["j", "k"] none, r, _, Ls, xs, s', _, c, hP.user, hP.nologjit, rfl, h1, by unfold PostState.init; rw [(init_inv a1).1],
    ⟨fun k h => ?_, fun n h => ?_, fun x h => ?_⟩, a3, by simp [hxs], elements_exist _ (withFree_user hP.user xs).good.complete, fun d _ _ m m1 m2 => ?_, fun d hd _ => ?_, b1,
    .cons hc .nil, ⟨_, rfl, rfl, rfl⟩, ?_⟩
  · simp only [Prior.keys, List.mem_singleton] at h
    subst h
    exact .inl hk
  · simp [Prior.planets] at h
  · simp [Prior.keys] at h
  · have : m = 1 := by
      have : (exampleSetup ["j", "k"] none).params.numPlanets = 1 := rfl
      omega
    subst this
    exact hd _ _
  · refine .inl ?_
    simp only [exampleSetup, List.mem_cons, List.not_mem_nil, or_false] at hd
    rcases hd with rfl | rfl | rfl <;> norm_num
  · rintro ⟨q, c1, c2, c3⟩
    cases c1
    cases c2

/-- C154 for nested sampling (what is missing is the same): `likelihood_ns_array(xs)` is the logarithm of the same density plus the sum of the constraints among the priors, those that have no
transformation of the unit cube, evaluated with their finite penalties; should that sum not be finite, it is `-1e100`. -/
theorem C154_nested_partial (dflt : ℝ) (P : SetupFile) (hu : UserParams P.params) (hj : ∀ k, Key.inst .logjit k ∉ P.params.items.keys) (hh : P.hnames = none)
    (r : SetupPost) (hr : P.initialize dflt false = .ok r) (p : PostState) (hp : PostState.init ⟨r.st, none⟩ = .ok p) (priors : List Prior) (hq : ∀ q ∈ priors, q.OfFile P.params)
    (drive : Drive) (tb : ℝ) (Ls : List RVLike) (hL : r.likes.map Prod.snd = Ls.map InstLike.rv) (calls : List PostCall)
    (xs : List ℝ) (hx : xs.length = (freeOrder P.params).length) (orb : Nat → Synth) (ho : Elements (withFree P.params xs) orb) (v : Nat → ℝ → ℝ)
    (hv : ∀ d ∈ P.data, d.tel ∈ P.instnames → ∀ m, 1 ≤ m → m ≤ P.params.numPlanets → drive d.t (orb m) = some (v m d.t))
    (he : ∀ d ∈ P.data, d.tel ∈ P.instnames → d.err ≠ 0 ∨ valueAt P.params xs (.inst .jit ("_" ++ d.tel)) ≠ 0)
    (s' : VState ℝ) (hs' : VState.init (withFree P.params xs) = .ok s') (vals : List Fl) (hvals : ConstraintValues s' priors vals) :
    let like := compositeLogprob (Ls.map fun L => L.logprob fun s t => modelCall drive tb s none t)
    let result := (({ p with priors := priors }.runAll like calls).likelihoodNsArray like xs).2
    (∀ x, vals.sum = .fin x → ∃ l, result = .ok (.fin (x + l)) ∧ exp l = ((firsts P.instnames).map (instDensity P xs (fileVelocity P.params xs tb v))).prod) ∧
    ((∀ x, vals.sum ≠ .fin x) → result = .ok (.fin (-1e100))) := by
  intro like result
  obtain ⟨s2, l, hsame, h1, h2, h3, h4⟩ := file_posterior dflt P hu hj hh r hr p hp priors hq drive tb Ls hL calls xs hx orb ho v hv he s' hs'
  have hex := extraLikelihood_eq s2 priors vals (by
    unfold ConstraintValues at hvals
    rw [isConstraint_eq] at hvals
    exact hvals.imp fun q w hqw => by rw [Prior.call_same hsame]; exact hqw)
  rw [show result = _ from h2]
  unfold likelihoodNs
  rw [hex, h3]
  refine ⟨fun x hxs => ⟨l, ?_, h4⟩, fun hn => ?_⟩
  · simp only [hxs, Fl.isFinite, if_true]
    rfl
  · have : vals.sum.isFinite ≠ true := fun hc => by
      obtain ⟨x, hx'⟩ := (Fl.isFinite_iff _).1 hc
      exact hn x hx'
    simp only [if_neg this]

theorem valueAt_ones {p : Params ℝ} {k : Key} (hk : k ∈ freeOrder p) : valueAt p ((freeOrder p).map fun _ => 1) k = 1 := by
  unfold valueAt
  rw [if_pos (List.mem_filter.1 hk).2, List.getD_eq_getElem?_getD, List.getElem?_map, List.getElem?_eq_getElem (List.idxOf_lt_length_iff.2 hk)]
  rfl

/-- Non-vacuity (the other hypotheses are those of the example above): a file with a prior on the amplitude and the constraint that the amplitude is positive, which is met at `K = 1`. -/
example : ∃ (P : SetupFile) (xs : List ℝ) (s' : VState ℝ), UserParams P.params ∧ xs.length = (freeOrder P.params).length ∧ VState.init (withFree P.params xs) = .ok s' ∧
    (∀ q ∈ [Prior.gaussian (.orb .k 1) 5 1, .posK 1], q.OfFile P.params) ∧ ConstraintValues s' [.gaussian (.orb .k 1) 5 1, .posK 1] [.fin 0] := by
  have hP := exampleSetup_ready ["j", "k"] none false
  set xs : List ℝ := (freeOrder (exampleSetup ["j", "k"] none).params).map fun _ => 1 with hxs
  obtain ⟨s', b1, b2, b3, b4, b5⟩ := (withFree_user hP.user xs).model
  have hk : Key.orb .k 1 ∈ (exampleSetup ["j", "k"] none).params.items.keys := by
    change _ ∈ exampleSetupParams.items.keys
    rw [exampleSetup_keys]
    simp
  have hfree : Key.orb .k 1 ∈ freeOrder (exampleSetup ["j", "k"] none).params := List.mem_filter.2 ⟨mem_fileOrder hP.user hk, rfl⟩
  have hread := withFree_read hP.user xs b1 hk
  rw [hxs, valueAt_ones hfree] at hread
  refine ⟨_, xs, s', hP.user, by simp [hxs], b1, fun q hq => ?_, .cons ?_ .nil⟩
  · simp only [List.mem_cons, List.not_mem_nil, or_false] at hq
    rcases hq with rfl | rfl
    · refine ⟨fun k h => ?_, fun n h => ?_, fun x h => ?_⟩
      · simp only [Prior.keys, List.mem_singleton] at h
        subst h
        exact .inl hk
      · simp [Prior.planets] at h
      · simp [Prior.keys] at h
    · refine ⟨fun k h => ?_, fun n h => ?_, fun x h => ?_⟩
      · simp [Prior.keys] at h
      · have : (exampleSetup ["j", "k"] none).params.numPlanets = 1 := rfl
        have : n = 1 := by simpa [Prior.planets] using h
        omega
      · simp [Prior.keys] at h
  · simp only [Prior.call, Prior.takesFinite, posKCall, List.range_one, List.map_cons, List.map_nil, zero_add, posKLoop, ampOf, hread]
    norm_num

theorem set_at_end (e : Dict Key (Parameter ℝ)) (k : Key) (v : Parameter ℝ) (h : k ∉ e.keys) : e.set k v = e ++ [(k, v)] := by
  induction e with
  | nil => rfl
  | cons a t ih =>
    simp only [Dict.keys, List.map_cons, List.mem_cons, not_or] at h
    unfold Dict.set
    rw [if_neg (Ne.symm h.1), ih h.2]
    rfl

theorem set_new_erase_last (d : Dict Key (Parameter ℝ)) (k k' : Key) (q v : Parameter ℝ) (h1 : k ∉ d.keys) (h2 : k' ∉ d.keys) (h3 : k ≠ k') :
    (Dict.set (d ++ [(k, q)]) k' v).erase k = d ++ [(k', v)] := by
  rw [set_at_end _ _ _ (by simp only [Dict.keys, List.map_append, List.mem_append, not_or]; exact ⟨h2, by simpa using Ne.symm h3⟩)]
  unfold Dict.erase
  have hd : d.filter (fun p => decide (p.1 ≠ k)) = d := by
    rw [List.filter_eq_self]
    intro a ha
    simp only [decide_eq_true_eq]
    rintro rfl
    exact h1 (List.mem_map.2 ⟨a, ha, rfl⟩)
  rw [List.filter_append, List.filter_append, hd]
  simp [Ne.symm h3]

/-- C154 and C155 for files with a `logjit` parameter: if it is the last one of the file (all other cases fail, `C93_runtime_violated`), the posterior is the one of the file in which the
jitter itself, the exponential, is given with the same flag, so both theorems say what it computes. -/
theorem C154_logjit_partial (dflt : ℝ) (P : SetupFile) (option : Bool) (d : Dict Key (Parameter ℝ)) (suffix : String) (q : Parameter ℝ)
    (hP : P.params.items = d ++ [(.inst .logjit suffix, q)]) (hd : ∀ r, Key.inst .logjit r ∉ d.keys) (hj : Key.inst .jit suffix ∉ d.keys) :
    P.initialize dflt option = (P.withJit d suffix q).initialize dflt option := by
  have hkeys : P.params.items.keys = d.keys ++ [.inst .logjit suffix] := by rw [hP]; simp [Dict.keys]
  have hno : ∀ k ∈ d.keys, ¬ IsLogjit k := by rintro k hk ⟨r, rfl⟩; exact hd r hk
  have hget : P.params.items.get? (.inst .logjit suffix) = some q := by
    rw [hP]
    have : ∀ e : Dict Key (Parameter ℝ), Key.inst .logjit suffix ∉ Dict.keys e → Dict.get? (e ++ [(Key.inst .logjit suffix, q)]) (.inst .logjit suffix) = some q := by
      intro e
      induction e with
      | nil => intro _; simp
      | cons a t ih =>
        intro h
        simp only [Dict.keys, List.map_cons, List.mem_cons, not_or] at h
        rw [List.cons_append, Dict.get?_cons, if_neg (Ne.symm h.1), ih h.2]
    exact this d (hd suffix)
  have h1 : convertLogjit P.params.items.keys P.params.items = .ok (P.withJit d suffix q).params.items := by
    rw [hkeys, convertLogjit_skip _ hno]
    unfold convertLogjit
    rw [hget]
    simp only
    rw [hP, set_new_erase_last d _ _ _ _ (hd suffix) hj (by simp)]
    rfl
  have h2 : convertLogjit (P.withJit d suffix q).params.items.keys (P.withJit d suffix q).params.items = .ok (P.withJit d suffix q).params.items := by
    refine (C93_last_partial _).1 ?_
    rintro k hk ⟨r, rfl⟩
    simp only [SetupFile.withJit, Dict.keys, List.map_append, List.map_cons, List.map_nil, List.mem_append, List.mem_singleton] at hk
    rcases hk with hk | hk
    · exact hd r hk
    · simp at hk
  have h3 : (P.withJit d suffix q).decorr option = P.decorr option := rfl
  have h4 : (P.withJit d suffix q).addInst = P.addInst := by
    funext vars iparams acc inst
    have a1 : (P.withJit d suffix q).checkColumns vars = P.checkColumns vars := by
      induction vars with
      | nil => rfl
      | cons v t ih => unfold SetupFile.checkColumns; rw [ih]; rfl
    have a2 : (P.withJit d suffix q).newLike vars acc.1 inst = P.newLike vars acc.1 inst := by
      unfold SetupFile.newLike
      rfl
    unfold SetupFile.addInst
    rw [a1, a2]
    rfl
  unfold SetupFile.initialize
  rw [h1, h2, h3, h4]
  rfl

/-- Non-vacuity: the example file with the jitter of the instrument `m` given as `logjit_m`. -/
example : ∃ (P : SetupFile) (d : Dict Key (Parameter ℝ)) (q : Parameter ℝ), P.params.items = d ++ [(.inst .logjit "_m", q)] ∧ (∀ r, Key.inst .logjit r ∉ d.keys) ∧
    Key.inst .jit "_m" ∉ d.keys ∧ UserParams (P.withJit d "_m" q).params ∧ P.params.items.length = 14 := by
  refine ⟨{ exampleSetup ["j", "k"] none with params := { exampleSetupParams with items := exampleSetupParams.items ++ [(.inst .logjit "_m", { value := 1 })] } }, exampleSetupParams.items,
    { value := 1 }, rfl, ?_, ?_, ?_, ?_⟩
  · intro r; rw [exampleSetup_keys]; simp [exampleHnames]
  · rw [exampleSetup_keys]; simp [exampleHnames]
  · have h := UserParams.set exampleSetupParams (.inst .jit "_m") { value := exp 1 } (exampleSetup_ready ["j"] none false).user (.inr (.inr (.inr ⟨_, _, rfl⟩))) (by simp)
    unfold Params.setItem at h
    rw [set_at_end _ _ _ (by rw [exampleSetup_keys]; simp [exampleHnames])] at h
    exact h
  · rfl

end Radvel
