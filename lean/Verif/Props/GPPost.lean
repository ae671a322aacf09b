import Verif.Spec.GPPost
import Verif.Lemmas.GPPost
import Verif.Props.FileModel
import Verif.Props.GP

/-!
# C155: the posterior that a setup file with Gaussian processes defines
-/

namespace Radvel

open Real

theorem GPSim.runAll {mod : Curve} {p : GPPost} : ∀ (calls : List PostCall) {p' : GPPost}, GPSim p p' → GPSim p (p'.runAll mod calls)
  | [], _, h => h
  | .logprobArray xs :: t, _, h => GPSim.runAll t (h.array (mod := mod) xs)
  | .likelihoodNsArray xs :: t, _, h => GPSim.runAll t (h.ns (mod := mod) xs)

theorem foldl_fin : ∀ (ls : List ℝ) (a : ℝ), (ls.map Fl.fin).foldl (· + ·) (.fin a) = .fin (a + ls.sum)
  | [], a => by simp
  | b :: t, a => by
    rw [List.map_cons, List.foldl_cons, show (Fl.fin a + Fl.fin b) = .fin (a + b) from rfl, foldl_fin t]
    simp [add_assoc]

theorem foldl_neg : ∀ (vs : List Fl) (a : Fl), (a = .neg ∨ ∃ x, a = .fin x) → (∀ v ∈ vs, v = .neg ∨ ∃ x, v = .fin x) → (a = .neg ∨ .neg ∈ vs) → vs.foldl (· + ·) a = .neg
  | [], a, _, _, h => by simpa using h
  | v :: t, a, ha, hv, h => by
    rw [List.foldl_cons]
    have h0 := hv v List.mem_cons_self
    apply foldl_neg t
    · rcases ha with rfl | ⟨x, rfl⟩ <;> rcases h0 with rfl | ⟨y, rfl⟩
      · exact .inl rfl
      · exact .inl rfl
      · exact .inl rfl
      · exact .inr ⟨_, rfl⟩
    · exact fun w hw => hv w (List.mem_cons_of_mem _ hw)
    · rcases h with rfl | h
      · left; rcases h0 with rfl | ⟨y, rfl⟩ <;> rfl
      · rcases List.mem_cons.1 h with rfl | h
        · left; rcases ha with rfl | ⟨x, rfl⟩ <;> rfl
        · exact .inr h

/-- What one GP likelihood of the file needs and gives after writing an array. -/
theorem fileGP_context {P : SetupFile} (hu : UserParams P.params) {d : Dict String (List Key)} {s s' s2 : VState ℝ} (hs : VState.init P.params = .ok s) (xs : List ℝ)
    (hs' : VState.init (withFree P.params xs) = .ok s') (hsame : SameVector s' s2) {i : String} {m m0 : GPLike × Kernel} (hm : FileGP P d s i m0) (hG : m.1 = m0.1) (hkind : m.2.kind = m0.2.kind)
    (hok : MemberOk s2 m) (hg : Key.inst .gamma ("_" ++ i) ∈ P.params.items.keys) (hj : Key.inst .jit ("_" ++ i) ∈ P.params.items.keys)
    {kind : KernelKind} (hk : P.kernelOf i = .ok (.matrix kind)) {h : String → ℝ} (hh : ∀ hn, d.get? i = some hn → HyperOf P.params xs hn kind h)
    (orb : Nat → Synth) (ho : Elements (withFree P.params xs) orb) (drive : Drive) (tb : ℝ) (v : Nat → ℝ → ℝ)
    (hv : ∀ d ∈ P.data, d.tel = i → ∀ n, 1 ≤ n → n ≤ P.params.numPlanets → drive d.t (orb n) = some (v n d.t)) :
    m.2.kind = kind ∧ m.1.rv.obs = obsOf P i ∧
    GPContext (fun s t => modelCall drive tb s none t) m.1 ⟨s2, m.2⟩ h (valueAt P.params xs (.inst .gamma ("_" ++ i))) (valueAt P.params xs (.inst .jit ("_" ++ i)))
      (fileVelocity P.params xs tb v) := by
  obtain ⟨kind', q1, q2, q3, q4, q5, q6⟩ := hm
  rw [hk] at q1; cases q1
  have hu' := withFree_user hu xs
  have hobs : m.1.rv.obs = obsOf P i := by
    rw [hG, q4]
    unfold obsOf SetupFile.rowsOf
    congr 1
  have hread : ∀ k ∈ P.params.items.keys, ∃ j r, s2.indices.get? k = some j ∧ s2.rows[j]? = some r ∧ r.value = valueAt P.params xs k := by
    intro k hk
    obtain ⟨q, hq⟩ := Dict.exists_get?_of_mem _ hk
    obtain ⟨j, h1, h2⟩ := init_row hu' hs' (k := k) (q := { q with value := valueAt P.params xs k }) (by rw [withFree_get?, hq]; rfl)
    exact ⟨j, _, by rw [hsame.indices]; exact h1, by rw [hsame.rows]; exact h2, rfl⟩
  have hon := hok.1.on
  refine ⟨hkind.trans q2, hobs, ?_, ?_, ?_, ?_⟩
  · intro slot hslot
    simp only [hkind.trans q2] at hslot
    obtain ⟨k, h1, h2, h3⟩ := hh _ q3 slot hslot
    have hkp : k ∈ P.params.items.keys := by
      have := q6.1.keys k h1
      obtain ⟨t, a1, a2, a3, a4, a5⟩ := hu.model
      rw [hs] at a1; cases a1
      simpa [a4] using this
    obtain ⟨j, r, e1, e2, e3⟩ := hread k hkp
    exact ⟨k, by rw [hG]; exact h1, h2, j, r, e1, e2, e3.trans h3.symm⟩
  · obtain ⟨j, r, e1, e2, e3⟩ := hread _ hg
    have := hon.gamma
    rw [hG, q5] at this
    simp only [e1, Option.some.injEq] at this
    exact ⟨r, by rw [hG, ← this]; exact e2, e3⟩
  · obtain ⟨j, r, e1, e2, e3⟩ := hread _ hj
    have := hon.jit
    rw [hG, q5] at this
    simp only [e1, Option.some.injEq] at this
    exact ⟨r, by rw [hG, ← this]; exact e2, e3⟩
  · intro o hm
    rw [hobs] at hm
    obtain ⟨d, h1, rfl⟩ := List.mem_map.1 hm
    obtain ⟨d1, d2⟩ := List.mem_filter.1 h1
    simp only [decide_eq_true_eq] at d2
    simp only
    rw [modelCall_congr drive tb s' _ none _ hsame.rows hsame.indices hsame.basis hsame.planets]
    have := C25_sum (withFree P.params xs) hu' orb ho drive tb d.t (fun m => v m d.t) (fun m hm => hv d d1 d2 m hm.1 hm.2)
    unfold curve at this
    rw [hs'] at this
    simp only at this
    show modelCall drive tb s' none d.t = _
    rw [this]
    have htr : ∀ k, trendOf (withFree P.params xs) k = valueAt P.params xs k := by
      intro k
      unfold trendOf
      rw [withFree_get?]
      unfold valueAt isFree
      cases P.params.items.get? k <;> simp
    rw [htr, htr]
    rfl

theorem gp_values {is : List String} {ms : List (GPLike × Kernel)} {R : String → GPLike × Kernel → Prop} (h : List.Forall₂ R is ms) (f : String → Fl) {Q : GPLike × Kernel → Fl → Prop}
    (hQ : ∀ i m, i ∈ is → R i m → Q m (f i)) : List.Forall₂ Q ms (is.map f) := by
  induction h with
  | nil => exact .nil
  | cons h1 _ ih => exact .cons (hQ _ _ List.mem_cons_self h1) (ih fun i m hi => hQ i m (List.mem_cons_of_mem _ hi))

theorem forall2_members {R : String → GPLike × Kernel → Prop} {is : List String} {ms ms' : List (GPLike × Kernel)} (h : List.Forall₂ R is ms) (hk : memberKinds ms' = memberKinds ms) :
    List.Forall₂ (fun i m' => m' ∈ ms' ∧ ∃ m, R i m ∧ m'.1 = m.1 ∧ m'.2.kind = m.2.kind) is ms' := by
  induction h generalizing ms' with
  | nil =>
    cases ms' with
    | nil => exact .nil
    | cons a t => simp [memberKinds] at hk
  | cons h1 _ ih =>
    cases ms' with
    | nil => simp [memberKinds] at hk
    | cons a t =>
      simp only [memberKinds, List.map_cons, List.cons.injEq, Prod.mk.injEq] at hk
      refine .cons ⟨List.mem_cons_self, _, h1, hk.1.1, hk.1.2⟩ ?_
      exact (ih hk.2).imp fun _ _ ⟨a1, a2⟩ => ⟨List.mem_cons_of_mem _ a1, a2⟩

/-- What both ways of evaluating the posterior of a file with Gaussian processes come to. -/
theorem gp_file_posterior (dflt : ℝ) (P : SetupFile) (option : Bool) (hu : UserParams P.params) (hj : ∀ k, Key.inst .logjit k ∉ P.params.items.keys)
    (d : Dict String (List Key)) (hh : P.hnames = some d) (kind : String → KernelKind) (hk : ∀ i ∈ P.instnames, P.kernelOf i = .ok (.matrix (kind i)))
    (r : SetupPost) (hr : P.initialize dflt option = .ok r) (priors : List Prior) (p : GPPost) (hp : GPPost.init r priors = some (.ok p))
    (drive : Drive) (tb : ℝ) (calls : List PostCall)
    (xs : List ℝ) (hx : xs.length = (freeOrder P.params).length) (orb : Nat → Synth) (ho : Elements (withFree P.params xs) orb) (v : Nat → ℝ → ℝ)
    (hv : ∀ d ∈ P.data, d.tel ∈ P.instnames → ∀ m, 1 ≤ m → m ≤ P.params.numPlanets → drive d.t (orb m) = some (v m d.t))
    (h : String → String → ℝ) (hhyp : ∀ i ∈ P.instnames, ∀ hn, d.get? i = some hn → HyperOf P.params xs hn (kind i) (h i)) (hreg : ∀ i ∈ P.instnames, Regular (kind i) (h i))
    (s' : VState ℝ) (hs' : VState.init (withFree P.params xs) = .ok s') :
    let mod : Curve := fun s t => modelCall drive tb s none t
    ∃ q2 : GPPost, SameVector s' q2.st ∧ q2.priors = priors ∧ (p.runAll mod calls).setFast xs = (q2, none) ∧
      ((∀ i ∈ P.instnames, (covOf P xs (kind i) (h i) i).PosDef) → ∃ l, (gpSum mod q2.members q2.st 0).2 = .ok (.fin l) ∧
        exp l = ((firsts P.instnames).map fun i => gpDensity P xs (kind i) (h i) (fileVelocity P.params xs tb v) i).prod) ∧
      ((∃ i ∈ P.instnames, ¬ (covOf P xs (kind i) (h i) i).PosDef) → (gpSum mod q2.members q2.st 0).2 = .ok .neg) := by
  intro mod
  have hmod : mod.DictFree := modelCall_dictFree drive tb
  obtain ⟨hs, hkeys, ms, b1, b2⟩ := initialize_gp hu hj hh (fun i hi => ⟨_, hk i hi⟩) hr
  have hp' : p = { st := r.st, likeCache := none, priors := priors, members := ms } := by
    unfold GPPost.init at hp
    rw [b1, (init_inv hs).1] at hp
    simp only [Option.map_some, Option.some.injEq] at hp
    exact (Except.ok.inj hp).symm
  have hsim0 : GPSim p p := by
    rw [hp']
    refine ⟨rfl, rfl, rfl, rfl, .refl _, fun _ _ => rfl, .inl rfl, rfl, ?_⟩
    intro m hm
    simp only at hm
    have : ∀ (is : List String) (ms : List (GPLike × Kernel)), List.Forall₂ (fun i m => FileGP P d r.st i m) is ms → ∀ m ∈ ms, MemberOk r.st m := by
      intro is ms h
      induction h with
      | nil => simp
      | cons h1 _ ih =>
        intro m hm
        rcases List.mem_cons.1 hm with rfl | hm
        · obtain ⟨_, _, _, _, _, _, h⟩ := h1
          exact h
        · exact ih m hm
    exact this _ _ b2 m hm
  have hsim := GPSim.runAll (mod := mod) calls hsim0
  generalize hq : p.runAll mod calls = q at hsim
  have hset := hsim.set xs
  -- the array
  have hw := write_file hu xs hx hs hs'
  have hfree : freeRows q.st.rows = freeRows r.st.rows := by rw [hsim.flags.freeRows, hp']
  have hlen : xs.length = (freeRows r.st.rows).length := by rw [hx, (free_forall hu hs).length_eq]
  have hwq : writeVals (freeRows q.st.rows) xs q.st.rows = (s'.rows, none) := by
    rw [hfree, ← hw]
    refine writeVals_agree (rows := r.st.rows) ?_ ?_ xs hlen
    · have := hsim.flags; rw [hp'] at this; exact this
    · have := hsim.rows; rw [hp'] at this; exact this
  have hspec := gpSetFast_spec q hsim.cache xs
  rw [hwq] at hspec
  simp only at hspec
  set q2 : GPPost := { q with st := { q.st with rows := s'.rows }, likeCache := some (freeRows q.st.rows) } with hq2
  rw [hspec] at hset
  have hsame : SameVector s' q2.st := by
    have h0 := written_same hu xs hs hs'
    refine ⟨rfl, ?_, ?_, ?_⟩
    · have := hset.indices; rw [hp'] at this; exact this.trans h0.indices
    · have := hset.basis; rw [hp'] at this; exact this.trans h0.basis
    · have := hset.planets; rw [hp'] at this; exact this.trans h0.planets
  have hpri : q2.priors = priors := by have := hset.priors; rw [hp'] at this; exact this
  -- the likelihoods
  have hfirst : ∀ i ∈ firsts P.instnames, i ∈ P.instnames := fun i hi => (mem_firsts _ _).1 hi
  have hmem : List.Forall₂ (fun i m' => m' ∈ q2.members ∧ ∃ m, FileGP P d r.st i m ∧ m'.1 = m.1 ∧ m'.2.kind = m.2.kind) (firsts P.instnames) q2.members := by
    refine forall2_members b2 ?_
    have := hset.kinds; rw [hp'] at this; exact this
  have hterm := gpSum_value hmod q2.members _ q2.st 0 (gp_values hmem
    (fun i => gpTerm (kind i) (h i) (obsOf P i) (valueAt P.params xs (.inst .jit ("_" ++ i))) (valueAt P.params xs (.inst .gamma ("_" ++ i))) (fileVelocity P.params xs tb v))
    (by
      rintro i m' hi ⟨hm', m, c1, c2, c3⟩
      have hi' := hfirst i hi
      obtain ⟨e1, e2, e3⟩ := fileGP_context hu hs xs hs' hsame c1 c2 c3 (hset.ok m' hm') (hkeys i hi').1 (hkeys i hi').2 (hk i hi') (hhyp i hi') orb ho drive tb v
        (fun d d1 d2 => hv d d1 (by rw [d2]; exact hi'))
      refine ⟨hset.ok m' hm', h i, _, _, _, e3, by rw [e1]; exact hreg i hi', ?_⟩
      rw [e1, e2]))
  refine ⟨q2, hsame, hpri, hspec, fun hpd => ?_, fun hpd => ?_⟩
  · set ls : List ℝ := (firsts P.instnames).map fun i => log (gpDensity P xs (kind i) (h i) (fileVelocity P.params xs tb v) i) with hls
    have hl : (firsts P.instnames).map (fun i => gpTerm (kind i) (h i) (obsOf P i) (valueAt P.params xs (.inst .jit ("_" ++ i))) (valueAt P.params xs (.inst .gamma ("_" ++ i)))
        (fileVelocity P.params xs tb v)) = ls.map Fl.fin := by
      rw [hls, List.map_map]
      apply List.map_congr_left
      intro i hi
      exact if_pos (hpd i (hfirst i hi))
    rw [hl, show (0 : Fl) = .fin 0 from rfl, foldl_fin] at hterm
    refine ⟨ls.sum, ?_, ?_⟩
    · rw [zero_add] at hterm
      exact hterm
    · have : ∀ is : List String, (∀ i ∈ is, i ∈ P.instnames) →
          exp (is.map fun i => log (gpDensity P xs (kind i) (h i) (fileVelocity P.params xs tb v) i)).sum =
            (is.map fun i => gpDensity P xs (kind i) (h i) (fileVelocity P.params xs tb v) i).prod := by
        intro is
        induction is with
        | nil => simp
        | cons a t ih =>
          intro hall
          rw [List.map_cons, List.sum_cons, exp_add, ih (fun i hi => hall i (List.mem_cons_of_mem _ hi)), List.map_cons, List.prod_cons, exp_log]
          unfold gpDensity mvnDensity
          have := (hpd a (hall a List.mem_cons_self)).det_pos
          positivity
      exact this _ hfirst
  · obtain ⟨i, hi, hnp⟩ := hpd
    have hneg := foldl_neg ((firsts P.instnames).map fun i => gpTerm (kind i) (h i) (obsOf P i) (valueAt P.params xs (.inst .jit ("_" ++ i)))
      (valueAt P.params xs (.inst .gamma ("_" ++ i))) (fileVelocity P.params xs tb v)) 0 (.inr ⟨0, rfl⟩) (by
        intro w hw
        obtain ⟨j, -, rfl⟩ := List.mem_map.1 hw
        unfold gpTerm
        split
        · exact .inr ⟨_, rfl⟩
        · exact .inl rfl) (.inr (List.mem_map.2 ⟨i, (mem_firsts _ _).2 hi, if_neg hnp⟩))
    rw [hneg] at hterm
    exact hterm

/-- C155 (missing: celerite, `logjit` parameters (`C154_logjit_partial`), hyperparameters with zero length scales or a disabled kernel, where stale matrices are used (`C34_gp_stale_violated`), and orbits that the
Kepler solver does not solve): take any setup file with Gaussian processes, the posterior made from it with any priors, and anything that was asked of the posterior before, with any arrays.
Then `logprob_array(xs)` is the sum of the priors, evaluated in the model of the file with the values `xs`, and the logarithm of the density of the file's velocities: every instrument's
velocities are multivariate normal around the planets' velocities, the trend and the instrument's offset, with the covariance of its kernel plus error² + jitter² on the diagonal. The
hyperparameters, too, are read from `xs` if they are free and from the file otherwise. Should one of the matrices fail to be positive definite, the result is `-inf`. -/
theorem C155_posterior_partial (dflt : ℝ) (P : SetupFile) (option : Bool) (hu : UserParams P.params) (hj : ∀ k, Key.inst .logjit k ∉ P.params.items.keys)
    (d : Dict String (List Key)) (hh : P.hnames = some d) (kind : String → KernelKind) (hk : ∀ i ∈ P.instnames, P.kernelOf i = .ok (.matrix (kind i)))
    (r : SetupPost) (hr : P.initialize dflt option = .ok r) (priors : List Prior) (p : GPPost) (hp : GPPost.init r priors = some (.ok p))
    (drive : Drive) (tb : ℝ) (calls : List PostCall)
    (xs : List ℝ) (hx : xs.length = (freeOrder P.params).length) (orb : Nat → Synth) (ho : Elements (withFree P.params xs) orb) (v : Nat → ℝ → ℝ)
    (hv : ∀ d ∈ P.data, d.tel ∈ P.instnames → ∀ m, 1 ≤ m → m ≤ P.params.numPlanets → drive d.t (orb m) = some (v m d.t))
    (h : String → String → ℝ) (hhyp : ∀ i ∈ P.instnames, ∀ hn, d.get? i = some hn → HyperOf P.params xs hn (kind i) (h i)) (hreg : ∀ i ∈ P.instnames, Regular (kind i) (h i))
    (s' : VState ℝ) (hs' : VState.init (withFree P.params xs) = .ok s') (vals : List Fl) (hvals : PriorValues s' priors vals) :
    let mod : Curve := fun s t => modelCall drive tb s none t
    let result := ((p.runAll mod calls).logprobArray mod xs).2
    (∀ x, vals.sum = .fin x → (∀ i ∈ P.instnames, (covOf P xs (kind i) (h i) i).PosDef) →
      ∃ l, result = .ok (.fin (x + l)) ∧ exp l = ((firsts P.instnames).map fun i => gpDensity P xs (kind i) (h i) (fileVelocity P.params xs tb v) i).prod) ∧
    (∀ x, vals.sum = .fin x → (∃ i ∈ P.instnames, ¬ (covOf P xs (kind i) (h i) i).PosDef) → result = .ok .neg) ∧
    ((∀ x, vals.sum ≠ .fin x) → result = .ok vals.sum) := by
  intro mod result
  obtain ⟨q2, hsame, hpri, hset, hpos, hneg⟩ := gp_file_posterior dflt P option hu hj d hh kind hk r hr priors p hp drive tb calls xs hx orb ho v hv h hhyp hreg s' hs'
  have hres : result = (q2.logprob mod).2 := by
    show ((p.runAll mod calls).logprobArray mod xs).2 = _
    unfold GPPost.logprobArray
    rw [hset]
  have hpv : PriorValues q2.st priors vals := by
    refine hvals.imp ?_
    intro q w hqw
    rw [Prior.call_same hsame]
    exact hqw
  rw [hres]
  unfold GPPost.logprob
  rw [hpri, priorSum_eq q2.st priors vals hpv]
  simp only
  have hadd : ∀ x w, (gpSum mod q2.members q2.st 0).2 = .ok w → (q2.addLike mod (.fin x)).2 = .ok (.fin x + w) := by
    intro x w hw
    unfold GPPost.addLike
    rcases hg : gpSum mod q2.members q2.st 0 with ⟨⟨s, ms⟩, rr⟩
    rw [hg] at hw
    simp only at hw
    subst hw
    rfl
  refine ⟨fun x hxs hpd => ?_, fun x hxs hpd => ?_, fun hn => ?_⟩
  · obtain ⟨l, h1, h2⟩ := hpos hpd
    refine ⟨l, ?_, h2⟩
    rw [hxs]
    simp only [Fl.isFinite, if_true]
    exact hadd x _ h1
  · rw [hxs]
    simp only [Fl.isFinite, if_true]
    exact hadd x _ (hneg hpd)
  · have : vals.sum.isFinite ≠ true := fun hc => by
      obtain ⟨x, hx'⟩ := (Fl.isFinite_iff _).1 hc
      exact hn x hx'
    rw [if_neg this]

/-- C155 for nested sampling (what is missing is the same): `likelihood_ns_array(xs)` is the logarithm of the same density plus the sum of the constraints among the priors, with their finite
penalties; should that sum not be finite, it is `-1e100`, and `-inf` if a matrix is not positive definite. -/
theorem C155_nested_partial (dflt : ℝ) (P : SetupFile) (option : Bool) (hu : UserParams P.params) (hj : ∀ k, Key.inst .logjit k ∉ P.params.items.keys)
    (d : Dict String (List Key)) (hh : P.hnames = some d) (kind : String → KernelKind) (hk : ∀ i ∈ P.instnames, P.kernelOf i = .ok (.matrix (kind i)))
    (r : SetupPost) (hr : P.initialize dflt option = .ok r) (priors : List Prior) (p : GPPost) (hp : GPPost.init r priors = some (.ok p))
    (drive : Drive) (tb : ℝ) (calls : List PostCall)
    (xs : List ℝ) (hx : xs.length = (freeOrder P.params).length) (orb : Nat → Synth) (ho : Elements (withFree P.params xs) orb) (v : Nat → ℝ → ℝ)
    (hv : ∀ d ∈ P.data, d.tel ∈ P.instnames → ∀ m, 1 ≤ m → m ≤ P.params.numPlanets → drive d.t (orb m) = some (v m d.t))
    (h : String → String → ℝ) (hhyp : ∀ i ∈ P.instnames, ∀ hn, d.get? i = some hn → HyperOf P.params xs hn (kind i) (h i)) (hreg : ∀ i ∈ P.instnames, Regular (kind i) (h i))
    (s' : VState ℝ) (hs' : VState.init (withFree P.params xs) = .ok s') (vals : List Fl) (hvals : ConstraintValues s' priors vals) :
    let mod : Curve := fun s t => modelCall drive tb s none t
    let result := ((p.runAll mod calls).likelihoodNsArray mod xs).2
    (∀ x, vals.sum = .fin x → (∀ i ∈ P.instnames, (covOf P xs (kind i) (h i) i).PosDef) →
      ∃ l, result = .ok (.fin (x + l)) ∧ exp l = ((firsts P.instnames).map fun i => gpDensity P xs (kind i) (h i) (fileVelocity P.params xs tb v) i).prod) ∧
    (∀ x, vals.sum = .fin x → (∃ i ∈ P.instnames, ¬ (covOf P xs (kind i) (h i) i).PosDef) → result = .ok .neg) ∧
    ((∀ x, vals.sum ≠ .fin x) → result = .ok (.fin (-1e100))) := by
  intro mod result
  obtain ⟨q2, hsame, hpri, hset, hpos, hneg⟩ := gp_file_posterior dflt P option hu hj d hh kind hk r hr priors p hp drive tb calls xs hx orb ho v hv h hhyp hreg s' hs'
  have hex := extraLikelihood_eq q2.st priors vals (by
    unfold ConstraintValues at hvals
    rw [isConstraint_eq] at hvals
    exact hvals.imp fun q w hqw => by rw [Prior.call_same hsame]; exact hqw)
  have hres : result = (if vals.sum.isFinite then q2.addLike mod vals.sum else (q2, .ok (.fin (-1e100)))).2 := by
    show ((p.runAll mod calls).likelihoodNsArray mod xs).2 = _
    unfold GPPost.likelihoodNsArray
    rw [hset]
    simp only [hpri, hex]
  rw [hres]
  have hadd : ∀ x w, (gpSum mod q2.members q2.st 0).2 = .ok w → (q2.addLike mod (.fin x)).2 = .ok (.fin x + w) := by
    intro x w hw
    unfold GPPost.addLike
    rcases hg : gpSum mod q2.members q2.st 0 with ⟨⟨s, ms⟩, rr⟩
    rw [hg] at hw
    simp only at hw
    subst hw
    rfl
  refine ⟨fun x hxs hpd => ?_, fun x hxs hpd => ?_, fun hn => ?_⟩
  · obtain ⟨l, h1, h2⟩ := hpos hpd
    refine ⟨l, ?_, h2⟩
    rw [hxs]
    simp only [Fl.isFinite, if_true]
    exact hadd x _ h1
  · rw [hxs]
    simp only [Fl.isFinite, if_true]
    exact hadd x _ (hneg hpd)
  · have : vals.sum.isFinite ≠ true := fun hc => by
      obtain ⟨x, hx'⟩ := (Fl.isFinite_iff _).1 hc
      exact hn x hx'
    rw [if_neg this]

/-- Non-vacuity: a file with a planet and an instrument with a quasi-periodic kernel, all four hyperparameters free, a prior, and two evaluations before. -/
example (drive : Drive) (v : Nat → ℝ → ℝ) (hd : ∀ t o, drive t o = some (v 1 t)) : ∃ (P : SetupFile) (d : Dict String (List Key)) (r : SetupPost) (p : GPPost) (xs : List ℝ) (s' : VState ℝ)
    (orb : Nat → Synth) (c : ℝ), UserParams P.params ∧ (∀ k, Key.inst .logjit k ∉ P.params.items.keys) ∧ P.hnames = some d ∧ P.instnames = ["j"] ∧
    (∀ i ∈ P.instnames, P.kernelOf i = .ok (.matrix .quasiPer)) ∧ P.initialize 0 false = .ok r ∧ GPPost.init r [.gaussian (.orb .k 1) 5 1] = some (.ok p) ∧
    xs.length = (freeOrder P.params).length ∧ Elements (withFree P.params xs) orb ∧
    (∀ d ∈ P.data, d.tel ∈ P.instnames → ∀ m, 1 ≤ m → m ≤ P.params.numPlanets → drive d.t (orb m) = some (v m d.t)) ∧
    (∀ i ∈ P.instnames, ∀ hn, d.get? i = some hn → HyperOf P.params xs hn .quasiPer fun _ => 1) ∧ Regular .quasiPer (fun _ => 1) ∧
    (∀ i ∈ P.instnames, (covOf P xs .quasiPer (fun _ => 1) i).PosDef) ∧ VState.init (withFree P.params xs) = .ok s' ∧
    PriorValues s' [.gaussian (.orb .k 1) 5 1] [.fin c] := by
  set P := exampleSetup ["j"] (some [("j", exampleHnames)]) with hPdef
  have hP := exampleSetup_ready ["j"] (some [("j", exampleHnames)]) false
  have hinst : ∀ i ∈ P.instnames, i = "j" := fun i hi => by simpa [hPdef, exampleSetup] using hi
  obtain ⟨r, h1, -⟩ := C119_ready 0 P false hP (by simp [hPdef, exampleSetup])
    (fun i hi => exampleSetup_inst _ _ i (.inl (hinst i hi)) (fun d hd => by cases hd; rw [hinst i hi]; exact ⟨rfl, rfl⟩))
  have hker : ∀ i ∈ P.instnames, P.kernelOf i = .ok (.matrix .quasiPer) := fun i _ => rfl
  obtain ⟨a1, a2, ms, a3, a4⟩ := initialize_gp hP.user hP.nologjit rfl (fun i hi => ⟨_, hker i hi⟩) h1
  set xs : List ℝ := (freeOrder P.params).map fun _ => 1 with hxs
  obtain ⟨s', b1, b2, b3, b4, b5⟩ := (withFree_user hP.user xs).model
  have hk : Key.orb .k 1 ∈ P.params.items.keys := by
    change _ ∈ exampleSetupParams.items.keys
    rw [exampleSetup_keys]
    simp
  have hval : ∃ c, Prior.call s' none (.gaussian (.orb .k 1) 5 1) = .ok (.fin c) := by
    simp only [Prior.call, withFree_read hP.user xs b1 hk, Prior.logpdf1, gaussianLogpdf]
    simp
  obtain ⟨c, hc⟩ := hval
  have hfree : ∀ k ∈ exampleHnames, k ∈ freeOrder P.params := by
    intro k hk
    refine List.mem_filter.2 ⟨mem_fileOrder hP.user ?_, ?_⟩
    · change _ ∈ exampleSetupParams.items.keys
      rw [exampleSetup_keys]; exact List.mem_append_right _ hk
    · simp only [exampleHnames, List.mem_cons, List.not_mem_nil, or_false] at hk
      rcases hk with rfl | rfl | rfl | rfl <;> rfl
  refine ⟨P, [("j", exampleHnames)], r, _, xs, s', _, c, hP.user, hP.nologjit, rfl, rfl, hker, h1, by unfold GPPost.init; rw [a3, (init_inv a1).1]; rfl, by simp [hxs],
    elements_exist _ (withFree_user hP.user xs).good.complete, fun d _ _ m m1 m2 => ?_, fun i hi hn hhn => ?_, ⟨one_pos, one_pos, one_pos, one_pos⟩, fun i hi => ?_, b1, .cons hc .nil⟩
  · have : m = 1 := by
      have : P.params.numPlanets = 1 := rfl
      omega
    subst this
    exact hd _ _
  · rw [hinst i hi] at hhn
    cases hhn
    intro slot hslot
    have key : ∃ k ∈ exampleHnames, Named slot.toList k.render := by
      simp only [KernelKind.slots, List.mem_cons, List.not_mem_nil, or_false] at hslot
      rcases hslot with e | e | e | e <;> rw [e]
      · exact ⟨.inst .gp "_perlength_j", by decide, .inr ⟨"j".toList, rfl⟩⟩
      · exact ⟨.inst .gp "_amp_j", by decide, .inr ⟨"j".toList, rfl⟩⟩
      · exact ⟨.inst .gp "_per_j", by decide, .inr ⟨"j".toList, rfl⟩⟩
      · exact ⟨.inst .gp "_explength_j", by decide, .inr ⟨"j".toList, rfl⟩⟩
    obtain ⟨k, k1, k2⟩ := key
    exact ⟨k, k1, k2, (valueAt_ones (hfree k k1)).symm⟩
  · rw [hinst i hi]
    have hobs : obsOf P "j" = [{ t := 1, y := 2, err := 1 }, { t := 3, y := 4, err := 1 }] := by
      simp [obsOf, hPdef, exampleSetup, DataRow.obs]
    refine dataCov_posDef _ _ _ _ ?_ fun _ => ?_
    · rw [hobs]
      intro o ho
      simp only [List.mem_cons, List.not_mem_nil, or_false] at ho
      rcases ho with rfl | rfl <;> simp
    · rw [hobs]
      intro a ha b hb
      simp only [List.map_cons, List.map_nil, List.mem_cons, List.not_mem_nil, or_false] at ha hb
      have hs : ∀ x : ℝ, sin x ^ 2 / (2 * 1 ^ 2) ≤ 100 := fun x => by have := sin_sq_le_one x; norm_num; linarith
      refine ⟨?_, hs _⟩
      rcases ha with rfl | rfl <;> rcases hb with rfl | rfl <;> norm_num

/-- C155 fails for gammas that are to be calculated analytically (`linear=True, vary=False`, /repo/radvel/model.py 45-46 and likelihood.py 386-415): GP likelihoods use the stored value instead
(`_resids`, /repo/radvel/likelihood.py 462-467). In every reachable state of every GP likelihood whose gamma is such a parameter, if the residuals vanish for its stored value,
then any other stored value gives another likelihood. A likelihood from which gamma is eliminated would not depend on it. -/
theorem C155_linear_violated {mod : Curve} (hmod : mod.DictFree) {G : GPLike} {g g' : GPState} {Ls Ls' : List RVLike} (hg : GPReach mod G g Ls) (hg' : GPReach mod G g' Ls')
    (hd : g.AtData G) (hd' : g'.AtData G) (hkind : g'.kernel.kind = g.kernel.kind) {h : String → ℝ} {γ γ' jit : ℝ} {M : ℝ → ℝ} (hc : GPContext mod G g h γ jit M) (hc' : GPContext mod G g' h γ' jit M)
    (_hlin : AnalyticGamma g.st G.rv.gammaIdx) (_hlin' : AnalyticGamma g'.st G.rv.gammaIdx) (hr : Regular g.kernel.kind h) (hpd : (dataCov g.kernel.kind h G.rv.obs jit).PosDef)
    (hobs : G.rv.obs ≠ []) (hres : ∀ o ∈ G.rv.obs, o.y - γ - M o.t = 0) (hne : γ' ≠ γ) :
    ∃ l l' : ℝ, (G.logprob mod g).2 = .ok (.fin l) ∧ (G.logprob mod g').2 = .ok (.fin l') ∧ l' < l := by
  rw [logprob_regular hmod hg.inv hd hc hr, logprob_regular hmod hg'.inv hd' hc' (by rw [hkind]; exact hr), hkind, if_pos hpd, if_pos hpd]
  refine ⟨_, _, rfl, rfl, ?_⟩
  have hdet := hpd.det_pos
  have hz : (fun i : Fin G.rv.obs.length => G.rv.obs[i].y - γ - M G.rv.obs[i].t) = 0 := funext fun i => hres _ (List.getElem_mem _)
  have hnz : (fun i : Fin G.rv.obs.length => G.rv.obs[i].y - γ' - M G.rv.obs[i].t) ≠ 0 := by
    intro e
    have h0 : 0 < G.rv.obs.length := List.length_pos_iff.2 hobs
    have e1 := congrFun e ⟨0, h0⟩
    have e2 := congrFun hz ⟨0, h0⟩
    simp only [Pi.zero_apply] at e1 e2
    exact hne (by linarith)
  have hq := hpd.inv.dotProduct_mulVec_pos hnz
  simp only [star_trivial] at hq
  rw [hz]
  unfold mvnDensity
  refine Real.log_lt_log (by positivity) (div_lt_div_of_pos_right (Real.exp_lt_exp.2 ?_) (by positivity))
  simp only [zero_dotProduct]
  linarith

open Classical in
/-- There is such a likelihood, with data, of every kind of kernel, and its stored gamma can be anything. -/
example (drive : Drive) (tb : ℝ) (kind : KernelKind) : ∃ (G : GPLike) (g : ℝ → GPState), G.rv.obs.length = 2 ∧ ∀ γ, GPReach (fun s t => modelCall drive tb s none t) G (g γ) [G.rv] ∧
    (g γ).AtData G ∧ (g γ).kernel.kind = kind ∧ GPContext (fun s t => modelCall drive tb s none t) G (g γ) (fun _ => 1) γ 0 (fun _ => 0) ∧ AnalyticGamma (g γ).st G.rv.gammaIdx ∧
    Regular kind (fun _ => 1) ∧ (dataCov kind (fun _ => 1) G.rv.obs 0).PosDef ∧ ∀ o ∈ G.rv.obs, o.y - 3 - 0 = 0 := by
  let row : ℝ → Key → Row ℝ := fun γ k => match k with
    | .inst .gamma _ => { value := γ, vary := false, scale := 0, linear := true }
    | .inst .gp _ => { value := 1, vary := true, scale := 0, linear := false }
    | _ => { value := 0, vary := true, scale := 0, linear := false }
  obtain ⟨G, g, h1, h2, h3, h4, h5, h6, h7, h8, h9⟩ := flatGP (fun s t => modelCall drive tb s none t) kind
    [{ t := 0, y := 3, err := 1 }, { t := 1, y := 3, err := 1 }] (row 0)
  have hn := h1.inv.built.namesOk
  have hput : ∀ γ, GPReach (fun s t => modelCall drive tb s none t) G { g with st := { g.st with rows := g.st.names.map (row γ) } } [G.rv] :=
    fun γ => .write g _ h1 _ (by simp [hn.len])
  refine ⟨G, fun γ => { g with st := { g.st with rows := g.st.names.map (row γ) } }, by rw [h5]; rfl, fun γ => ⟨hput γ, h2, h4, ?_, ?_, ?_, ?_, ?_⟩⟩
  · have hc := flatGP_context drive tb (hput γ).inv h6 (by rw [h7]; show stdNames kind = stdNames g.kernel.kind; rw [h4]) h8 (row γ) (by
      intro k i hk hi
      show (g.st.names.map _)[i]? = _
      simp [hn.fwd k i hk hi])
    refine ⟨fun slot hs => hc.hyper slot hs, hc.gamma, hc.jitter, fun o ho => ?_⟩
    simpa [row] using hc.model o ho
  · have hon := h1.inv.on
    refine ⟨_, row γ (.inst .gamma G.rv.suffix), hon.gamma, ?_, rfl, rfl⟩
    show (g.st.names.map _)[_]? = _
    simp [hn.fwd _ _ (.inl (h1.inv.built.inv.1.ext _ _ rfl rfl hon.gamma).1) hon.gamma]
  · cases kind <;> simp [Regular]
  · rw [h5]
    refine dataCov_posDef _ _ _ _ ?_ fun _ => ?_
    · intro o ho
      simp only [List.mem_cons, List.not_mem_nil, or_false] at ho
      rcases ho with rfl | rfl <;> simp
    · intro a ha b hb
      simp only [List.map_cons, List.map_nil, List.mem_cons, List.not_mem_nil, or_false] at ha hb
      rcases ha with rfl | rfl <;> rcases hb with rfl | rfl <;> norm_num
  · rw [h5]; simp

end Radvel
