import Verif.Lemmas.GPNames
import Verif.Lemmas.RVLikeData

/-! Invariants of reachable GP likelihoods. -/

namespace Radvel

/-- `compute_covmatrix` changes only `covmatrix`. -/
theorem computeCov_kernel (k : Kernel) (es : Option (List ℝ)) : ∃ c, (k.computeCov es).1 = { k with cov := c } := by
  obtain ⟨kind, hp, x1, x2, cov⟩ := k
  cases kind with
  | sqExp => exact ⟨_, rfl⟩
  | per => exact ⟨_, rfl⟩
  | quasiPer =>
    unfold Kernel.computeCov
    simp only
    split
    · exact ⟨cov, rfl⟩
    · split
      · refine ⟨cov, ?_⟩
        unfold Kernel.disabled
        cases es with
        | none => rfl
        | some e => simp only; split <;> rfl
      · exact ⟨_, rfl⟩

/-- A kernel that differs from `k` in distances and `covmatrix` only. -/
structure KFrame (k k' : Kernel) : Prop where
  kind : k'.kind = k.kind
  hp : k'.hp = k.hp

theorem KFrame.refl (k : Kernel) : KFrame k k := ⟨rfl, rfl⟩
theorem KFrame.trans {a b c : Kernel} (h : KFrame a b) (h' : KFrame b c) : KFrame a c := ⟨h'.kind.trans h.kind, h'.hp.trans h.hp⟩
theorem KFrame.dist (k : Kernel) (x y : List ℝ) : KFrame k (k.setDistances x y) := ⟨rfl, rfl⟩
theorem KFrame.cov (k : Kernel) (es : Option (List ℝ)) : KFrame k (k.computeCov es).1 := by
  obtain ⟨c, h⟩ := computeCov_kernel k es
  rw [h]; exact ⟨rfl, rfl⟩

theorem computeCov_dist (k : Kernel) (es : Option (List ℝ)) : (k.computeCov es).1.x1 = k.x1 ∧ (k.computeCov es).1.x2 = k.x2 := by
  obtain ⟨c, h⟩ := computeCov_kernel k es
  rw [h]; exact ⟨rfl, rfl⟩

theorem GPInv.kframe {G : GPLike} {g : GPState} {Ls : List RVLike} (h : GPInv G g Ls) {k : Kernel} (hk : KFrame g.kernel k) : GPInv G { g with kernel := k } Ls := by
  refine ⟨h.likes, h.mem, h.nodec, h.keys, ?_, ?_⟩
  · intro s; simp only [hk.kind, hk.hp]; exact h.slots s
  · simp only [hk.kind]; exact h.bij

/-- `logprob` updates the hyperparameters and then touches only the kernel's matrix. -/
theorem logprob_state (mod : Curve) (G : GPLike) (g : GPState) :
    ∃ k, (G.logprob mod g).1 = { (G.update g).1 with kernel := k } ∧ KFrame (G.update g).1.kernel k ∧ k.x1 = g.kernel.x1 ∧ k.x2 = g.kernel.x2 := by
  have f := update_frame G g
  unfold GPLike.logprob
  rcases hu : G.update g with ⟨g1, res⟩
  rw [hu] at f
  cases res with
  | error e => exact ⟨g1.kernel, rfl, .refl _, f.x1, f.x2⟩
  | ok _ =>
    simp only
    cases hr : G.resids mod g1.st with
    | error e => exact ⟨g1.kernel, rfl, .refl _, f.x1, f.x2⟩
    | ok r =>
      cases he : G.rv.errorbars g1.st with
      | error e => exact ⟨g1.kernel, rfl, .refl _, f.x1, f.x2⟩
      | ok es =>
        simp only
        have hc := KFrame.cov g1.kernel (some es)
        have hd := computeCov_dist g1.kernel (some es)
        rcases hk : g1.kernel.computeCov (some es) with ⟨k, res⟩
        rw [hk] at hc hd
        cases res <;> exact ⟨k, rfl, hc, hd.1.trans f.x1, hd.2.trans f.x2⟩

/-- `predict` updates the hyperparameters and then touches only the kernel's matrix and distances. -/
theorem predict_state (mod : Curve) (G : GPLike) (xpred : List ℝ) (g : GPState) :
    ∃ k, (G.predict mod xpred g).1 = { (G.update g).1 with kernel := k } ∧ KFrame (G.update g).1.kernel k := by
  unfold GPLike.predict
  rcases hu : G.update g with ⟨g1, res⟩
  cases res with
  | error e => exact ⟨g1.kernel, rfl, .refl _⟩
  | ok _ =>
    simp only
    cases hr : G.resids mod g1.st with
    | error e => exact ⟨g1.kernel, rfl, .refl _⟩
    | ok r =>
      simp only
      have f0 := KFrame.dist g1.kernel G.x G.x
      cases he : G.rv.errorbars g1.st with
      | error e => exact ⟨_, rfl, f0⟩
      | ok es =>
        simp only
        have f1 := f0.trans (KFrame.cov (g1.kernel.setDistances G.x G.x) (some es))
        rcases hk : (g1.kernel.setDistances G.x G.x).computeCov (some es) with ⟨k1, res⟩
        rw [hk] at f1
        cases res with
        | error e => exact ⟨_, rfl, f1⟩
        | ok K =>
          simp only
          split
          · exact ⟨_, rfl, f1⟩
          · have f2 := (f1.trans (KFrame.dist k1 xpred G.x)).trans (KFrame.cov (k1.setDistances xpred G.x) none)
            rcases hk2 : (k1.setDistances xpred G.x).computeCov none with ⟨k2, res⟩
            rw [hk2] at f2
            cases res with
            | error e => exact ⟨_, rfl, f2⟩
            | ok Ks =>
              simp only
              split
              · exact ⟨_, rfl, f2⟩
              · split
                · exact ⟨_, rfl, f2⟩
                · have f3 := (f2.trans (KFrame.dist k2 xpred xpred)).trans (KFrame.cov (k2.setDistances xpred xpred) none)
                  rcases hk3 : (k2.setDistances xpred xpred).computeCov none with ⟨k3, res⟩
                  rw [hk3] at f3
                  cases res with
                  | error e => exact ⟨_, rfl, f3⟩
                  | ok Kss =>
                    simp only
                    split
                    · exact ⟨_, rfl, f3⟩
                    · exact ⟨_, rfl, f3.trans (KFrame.dist _ _ _)⟩

/-- A successful `predict` leaves the distances at the data times. -/
theorem predict_atData (mod : Curve) (G : GPLike) (xpred : List ℝ) (g g' : GPState) (p : List ℝ × List (Option ℝ)) (h : G.predict mod xpred g = (g', .ok p)) :
    g'.AtData G := by
  unfold GPLike.predict at h
  rcases hu : G.update g with ⟨g1, res⟩
  rw [hu] at h
  cases res with
  | error e => cases h
  | ok _ =>
    simp only at h
    cases hr : G.resids mod g1.st with
    | error e => rw [hr] at h; cases h
    | ok r =>
      rw [hr] at h
      simp only at h
      cases he : G.rv.errorbars g1.st with
      | error e => rw [he] at h; cases h
      | ok es =>
        rw [he] at h
        simp only at h
        rcases hk : (g1.kernel.setDistances G.x G.x).computeCov (some es) with ⟨k1, res⟩
        rw [hk] at h
        cases res with
        | error e => cases h
        | ok K =>
          simp only at h
          split at h
          · cases h
          · rcases hk2 : (k1.setDistances xpred G.x).computeCov none with ⟨k2, res⟩
            rw [hk2] at h
            cases res with
            | error e => cases h
            | ok Ks =>
              simp only at h
              split at h
              · cases h
              · split at h
                · cases h
                · rcases hk3 : (k2.setDistances xpred xpred).computeCov none with ⟨k3, res⟩
                  rw [hk3] at h
                  cases res with
                  | error e => cases h
                  | ok Kss =>
                    simp only at h
                    split at h
                    · cases h
                    · cases h
                      exact ⟨rfl, rfl⟩

theorem residuals_state (mod : Curve) (G : GPLike) (g : GPState) : (G.residuals mod g).1 = (G.predict mod G.x g).1 := by
  unfold GPLike.residuals
  rcases G.predict mod G.x g with ⟨g1, res⟩
  cases res with
  | error e => rfl
  | ok p =>
    simp only
    cases G.resids mod g1.st <;> rfl

theorem mapM_lookup_keys (s : VState ℝ) (hn : List Key) (hs : List (Key × ℝ))
    (h : hn.mapM (lookupPar s) = .ok hs) : hs.map Prod.fst = hn ∧ ∀ k ∈ hn, k ∈ s.params.items.keys := by
  induction hn generalizing hs with
  | nil => cases h; simp
  | cons k t ih =>
    rw [List.mapM_cons] at h
    cases hk : s.params.items.get? k with
    | none => simp [lookupPar, hk, bind, Except.bind] at h
    | some q =>
      simp only [lookupPar, hk, bind, Except.bind, pure, Except.pure] at h
      split at h
      · cases h
      · rename_i v hv
        cases h
        obtain ⟨h1, h2⟩ := ih _ hv
        exact ⟨by simp [h1], by
          intro k' hk'
          rcases List.mem_cons.1 hk' with rfl | hk'
          · exact Dict.mem_keys_of_get? _ hk
          · exact h2 _ hk'⟩

theorem GPLike.new_inv {s : VState ℝ} {Ls : List RVLike} (h : Likes s Ls) {obs : List Obs} {hnames : List Key} {suffix : String} {kind : KernelKind} {G : GPLike} {g : GPState}
    (hG : GPLike.new s obs hnames suffix kind = .ok (G, g)) :
    GPInv G g (Ls ++ [G.rv]) ∧ g.AtData G ∧ g.kernel.cov = none ∧ g.kernel.kind = kind ∧ G.rv.obs = obs ∧ G.hnames = hnames ∧ G.rv.suffix = suffix ∧
      RVLike.new s obs suffix [] [] = .ok (g.st, G.rv) := by
  unfold GPLike.new at hG
  cases hL : RVLike.new s obs suffix [] [] with
  | error e => rw [hL] at hG; cases hG
  | ok p =>
    obtain ⟨s', L⟩ := p
    rw [hL] at hG
    simp only at hG
    split at hG
    · cases hG
    · rename_i hs hmap
      cases hk : Kernel.new kind (Dict.update [] hs) with
      | error e => rw [hk] at hG; cases hG
      | ok kernel =>
        rw [hk] at hG
        simp only at hG
        cases hG
        obtain ⟨h1, h2⟩ := mapM_lookup_keys _ _ _ hmap
        have hnd : (Dict.update ([] : Dict Key ℝ) hs).keys.Nodup := Dict.nodup_keys_update _ _ (by simp [Dict.keys])
        obtain ⟨k1, k2, k3, k4⟩ := Kernel.new_spec hnd hk
        have hmem : ∀ k, k ∈ (Dict.update ([] : Dict Key ℝ) hs).keys ↔ k ∈ hnames := by
          intro k
          rw [Dict.mem_keys_update, ← h1]
          simp [Dict.keys]
        obtain ⟨e1, e2, e3, e4, e5, e6, e7⟩ := RVLike.new_built s s' L obs suffix [] [] h.built.1 hL
        refine ⟨⟨.like s s' Ls L h obs suffix [] [] hL, by simp, by simp [e5], h2, ?_, ?_⟩, ⟨rfl, rfl⟩, k2, k1, e4, rfl, e3, rfl⟩
        · intro slot
          simp only [Kernel.setDistances, k1]
          exact k3 slot
        · simp only [Kernel.setDistances, k1]
          exact ⟨fun slot hs => by obtain ⟨k, hk, ht⟩ := k4.onto slot hs; exact ⟨k, (hmem k).1 hk, ht⟩,
            fun k hk => k4.total k ((hmem k).2 hk), fun k hk k' hk' => k4.inj k ((hmem k).2 hk) k' ((hmem k').2 hk')⟩

theorem RVLike.new_keys {s s' : VState ℝ} {L : RVLike} (obs : List Obs) (suffix : String) (vars : List String) (keys : List (List Char)) (hs : Built s)
    (hL : RVLike.new s obs suffix vars keys = .ok (s', L)) (k : Key) (hk : k ∈ s.params.items.keys) : k ∈ s'.params.items.keys := by
  have hk' : ∀ k ∈ [Key.inst .gamma suffix, .inst .jit suffix] ++ (vars.map (decorrName suffix)).map Key.other, ∀ p n, k ≠ .orb p n := by
    intro k hk p n
    simp only [List.mem_append, List.mem_cons, List.mem_map, List.not_mem_nil, or_false] at hk
    rcases hk with (rfl | rfl) | ⟨a, _, rfl⟩ <;> simp
  obtain ⟨s2, e1, _, _, e4, _⟩ := likelihood_fresh hs.inv.1 [.inst .gamma suffix, .inst .jit suffix] ((vars.map (decorrName suffix)).map Key.other) hk'
    (by rw [hs.inv.2]; simp)
  unfold RVLike.new at hL
  simp only [e1] at hL
  split at hL
  · cases hL; exact e4 k hk
  · cases hL

theorem GPReach.inv {mod : Curve} {G : GPLike} {g : GPState} {Ls : List RVLike} (h : GPReach mod G g Ls) : GPInv G g Ls := by
  induction h with
  | new s Ls g h obs hnames suffix kind hG => exact (GPLike.new_inv h hG).1
  | like g Ls h s' L obs suffix vars keys hL ih =>
    exact ⟨.like _ _ _ _ ih.likes obs suffix vars keys hL, by simp [ih.mem], ih.nodec, fun k hk => RVLike.new_keys obs suffix vars keys ih.built hL k (ih.keys k hk), ih.slots, ih.bij⟩
  | edit g Ls h k v hk hv ih =>
    exact ⟨.edit _ _ k v ih.likes hk hv, ih.mem, ih.nodec, fun k' hk' => (Dict.mem_keys_set _ _ _ _).2 (by right; exact ih.keys k' hk'), ih.slots, ih.bij⟩
  | write g Ls h rows hl ih => exact ⟨.write _ _ rows ih.likes hl, ih.mem, ih.nodec, ih.keys, ih.slots, ih.bij⟩
  | toVector g Ls h s' hs ih =>
    refine ⟨.toVector _ _ _ ih.likes hs, ih.mem, ih.nodec, ?_, ih.slots, ih.bij⟩
    rw [(dictToVector_indices _ _ hs).2]; exact ih.keys
  | toDict g Ls h s' hs ih =>
    refine ⟨.toDict _ _ _ ih.likes hs, ih.mem, ih.nodec, ?_, ih.slots, ih.bij⟩
    obtain ⟨s2, h1, _, _, _, h2, _⟩ := toDict_spec ih.built.inv.1 ih.built.inv.2
    rw [h1] at hs; cases hs
    simp only [h2]; exact ih.keys
  | logprob g Ls h ih =>
    obtain ⟨k, e, f, _⟩ := logprob_state mod G g
    rw [e]; exact ih.update.kframe f
  | predict g Ls h xpred ih =>
    obtain ⟨k, e, f⟩ := predict_state mod G xpred g
    rw [e]; exact ih.update.kframe f
  | residuals g Ls h ih =>
    rw [residuals_state]
    obtain ⟨k, e, f⟩ := predict_state mod G G.x g
    rw [e]; exact ih.update.kframe f

theorem modelCall_dictFree (drive : Drive) (tb : ℝ) : Curve.DictFree (fun s t => modelCall drive tb s none t) := by
  intro s s' h1 h2 h3 h4 t
  simp only
  unfold modelCall standardRvCalc trendCoef
  rw [h1, h2, h3, h4]

end Radvel
