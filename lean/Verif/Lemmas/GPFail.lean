import Verif.Lemmas.GPWitness

/-! What a `predict` that raises leaves behind, and what evaluations write into the dictionary. -/

namespace Radvel
open Real Matrix

/-- `predict` where the covariance matrix of the data is not positive definite. -/
theorem predict_singular {mod : Curve} (hmod : mod.DictFree) {G : GPLike} {g : GPState} {Ls : List RVLike} (hI : GPInv G g Ls) {h : String → ℝ} {γ jit : ℝ}
    {M : ℝ → ℝ} (hc : GPContext mod G g h γ jit M) (hr : Regular g.kernel.kind h) (hpd : ¬ (dataCov g.kernel.kind h G.rv.obs jit).PosDef) (xp : List ℝ) :
    (G.predict mod xp g).2 = .error .linAlgError ∧ (G.predict mod xp g).1.kernel.x1 = xp ∧ (G.predict mod xp g).1.kernel.x2 = G.x := by
  have f := update_frame G g
  have hok := updateLoop_ok g.st.indices.keys hI (hI.wellNamed hc.hyper)
  have hhas := hI.has hok hc.hyper
  have hm := hc.model' hmod
  unfold GPLike.predict
  rcases hu : G.update g with ⟨g1, res⟩
  have hok' : res = .ok () := by
    have : (G.update g).2 = .ok () := hok
    rw [hu] at this; exact this
  subst hok'
  rw [hu] at f hhas hm
  simp only at f hhas hm ⊢
  rw [resids_eq (by rw [f.rows]; exact hc.gamma) hm, errorbars_eq (by rw [f.rows]; exact hc.jitter)]
  simp only
  have reg : ∀ (k : Kernel) (es : Option (List ℝ)), KFrame g1.kernel k → k.computeCov es = k.store (Mat.table (fun a b => some (gpCov g.kernel.kind h a b)) k.x1 k.x2) es := by
    intro k es hk
    have e : k.kind = g.kernel.kind := hk.kind.trans f.kind
    rw [← e]
    exact computeCov_regular (by intro slot hs; rw [hk.hp]; exact hhas slot (by rw [← hk.kind]; exact hs)) (by rw [e]; exact hr) es
  rw [reg _ _ (KFrame.dist _ _ _)]
  unfold Kernel.store
  simp only
  obtain ⟨K, hK, hKm, hKn, hKe⟩ := addErrors_table (gpCov g.kernel.kind h) G.rv.obs jit
  have hK' : addErrors (Mat.table (fun a b => some (gpCov g.kernel.kind h a b)) (g1.kernel.setDistances G.x G.x).x1 (g1.kernel.setDistances G.x G.x).x2)
      (some (G.rv.obs.map (fun o => √(o.var jit)))) = K := hK
  rw [hK']
  have hnan : ¬ K.hasNan := by
    rintro ⟨i, j, hi, hj, hh⟩
    rw [hKm] at hi; rw [hKn] at hj
    have := hKe ⟨i, hi⟩ ⟨j, hj⟩
    simp only at this
    rw [hh] at this; cases this
  rw [if_neg hnan, reg (Kernel.setDistances { (g1.kernel.setDistances G.x G.x) with cov := some K } xp G.x) none ⟨rfl, rfl⟩]
  unfold Kernel.store addErrors
  simp only
  obtain ⟨u1, u2⟩ := upper_of_symm K (dataCov g.kernel.kind h G.rv.obs jit) hKe (dataCov_symm _ _ _ _)
  have hpd' : ¬ (K.upper K.n).PosDef := by
    have : ∀ n, n = G.rv.obs.length → ¬ (K.upper n).PosDef := by rintro n rfl; rw [u2]; exact hpd
    exact this _ hKn
  rw [if_pos hpd']
  exact ⟨rfl, rfl, rfl⟩

/-- `predict` with a disabled quasi-periodic kernel and a number of prediction times other than that of the data. -/
theorem predict_disabled {mod : Curve} (hmod : mod.DictFree) {G : GPLike} {g : GPState} {Ls : List RVLike} (hI : GPInv G g Ls) {h : String → ℝ} {γ jit : ℝ}
    {M : ℝ → ℝ} (hc : GPContext mod G g h γ jit M) (hk : g.kernel.kind = .quasiPer) (h0 : h "gp_amp" = 0) (h1 : 0 ≤ h "gp_per") (h2 : 0 ≤ h "gp_explength")
    (h3 : 0 ≤ h "gp_perlength") (he : ∀ o ∈ G.rv.obs, o.err ≠ 0 ∨ jit ≠ 0) (xp : List ℝ) (hx : xp.length ≠ G.rv.obs.length) :
    (G.predict mod xp g).2 = .error .valueError ∧ (G.predict mod xp g).1.kernel.x1 = xp ∧ (G.predict mod xp g).1.kernel.x2 = G.x := by
  have f := update_frame G g
  have hok := updateLoop_ok g.st.indices.keys hI (hI.wellNamed hc.hyper)
  have hhas := hI.has hok hc.hyper
  have hm := hc.model' hmod
  unfold GPLike.predict
  rcases hu : G.update g with ⟨g1, res⟩
  have hok' : res = .ok () := by
    have : (G.update g).2 = .ok () := hok
    rw [hu] at this; exact this
  subst hok'
  rw [hu] at f hhas hm
  simp only at f hhas hm ⊢
  rw [resids_eq (by rw [f.rows]; exact hc.gamma) hm, errorbars_eq (by rw [f.rows]; exact hc.jitter)]
  simp only
  have reg : ∀ (k : Kernel) (es : Option (List ℝ)), KFrame g1.kernel k → k.computeCov es = k.disabled es := by
    intro k es hkf
    exact computeCov_disabled (by intro slot hs; rw [hkf.hp]; exact hhas slot (by rw [← hkf.kind]; exact hs)) (hkf.kind.trans (f.kind.trans hk)) h0 h1 h2 h3 es
  have hlen : (G.rv.obs.map (fun o => √(o.var jit))).length = G.x.length := by simp [GPLike.x]
  have hxl : G.x.length = G.rv.obs.length := by simp [GPLike.x]
  rw [reg _ _ (KFrame.dist _ _ _)]
  unfold Kernel.disabled Kernel.setDistances
  simp only
  rw [if_pos hlen]
  simp only
  set K : Mat := Mat.addDiag { m := G.x.length, n := G.x.length, e := fun _ _ => some 0 } (List.map (fun x => x ^ 2) (G.rv.obs.map (fun o => √(o.var jit)))) with hK
  have hKe : ∀ i j : Nat, K.e i j = if i = j then some (0 + (List.map (fun x => x ^ 2) (G.rv.obs.map (fun o => √(o.var jit)))).getD i 0) else some 0 := by
    intro i j
    rw [hK]; unfold Mat.addDiag
    simp only [Option.map_some]
  have hnan : ¬ K.hasNan := by
    rintro ⟨i, j, hi, hj, hh⟩
    rw [hKe] at hh
    split at hh <;> cases hh
  rw [if_neg hnan, reg { g1.kernel with x1 := xp, x2 := G.x } none ⟨rfl, rfl⟩]
  unfold Kernel.disabled
  simp only
  have hpd : (K.upper K.n).PosDef := by
    have hKn : K.n = G.rv.obs.length := hxl
    have key : ∀ n, n = G.rv.obs.length → (K.upper n).PosDef := by
      rintro n rfl
      have hd : K.upper G.rv.obs.length = Matrix.diagonal (fun i : Fin G.rv.obs.length => G.rv.obs[i].err ^ 2 + jit ^ 2) := by
        refine (upper_of_symm K _ ?_ ?_).2
        · intro i j
          rw [hKe, Matrix.diagonal_apply]
          by_cases hij : i = j
          · subst hij
            rw [if_pos rfl, if_pos rfl, zero_add]
            congr 1
            rw [List.getD_eq_getElem _ _ (by simp)]
            simp [sq_sqrt (var_nonneg _ _)]
            rfl
          · rw [if_neg (fun e => hij (Fin.ext e)), if_neg hij]
        · intro i j
          rw [Matrix.diagonal_apply, Matrix.diagonal_apply]
          by_cases hij : i = j
          · subst hij; rfl
          · rw [if_neg hij, if_neg (Ne.symm hij)]
      rw [hd]
      apply PosDef.diagonal
      intro i
      rcases he _ (List.getElem_mem (n := i) i.2) with hh | hh
      · have : 0 < (G.rv.obs[i].err) ^ 2 := by have : G.rv.obs[i].err ≠ 0 := hh; positivity
        positivity
      · positivity
    exact key _ hKn
  rw [if_neg (not_not.2 hpd), if_pos (.inr (.inr (by show xp.length ≠ G.x.length; rw [hxl]; exact hx)))]
  exact ⟨rfl, rfl, rfl⟩

/-! ### the dictionary -/

/-- After the loop, the entries of the dictionary that it has passed have the values of their rows, and all other entries are as before. -/
theorem updateLoop_dict {G : GPLike} {Ls : List RVLike} (l : List Key) {g : GPState} (h : GPInv G g Ls) (hok : (runLoop G.updateKey g l).2 = .ok ()) :
    (∀ k, k ∉ G.hnames → (runLoop G.updateKey g l).1.st.params.items.get? k = g.st.params.items.get? k) ∧
    ∀ k ∈ G.hnames, ∀ i r, g.st.indices.get? k = some i → g.st.rows[i]? = some r → ∀ q, g.st.params.items.get? k = some q → (k ∈ l ∨ q.value = r.value) →
      (runLoop G.updateKey g l).1.st.params.items.get? k = some { q with value := r.value } := by
  induction l generalizing g with
  | nil =>
    refine ⟨fun _ _ => rfl, ?_⟩
    intro k _ i r _ _ q hq hm
    rcases hm with hm | hm
    · cases hm
    · show g.st.params.items.get? k = _
      rw [hq, ← hm]
  | cons a t ih =>
    unfold runLoop at hok ⊢
    cases hg : G.updateKey g a with
    | error e => rw [hg] at hok; cases hok
    | ok g' =>
      rw [hg] at hok
      simp only at hok ⊢
      have f := updateKey_frame hg
      obtain ⟨i1, i2⟩ := ih (h.updateKey hg) hok
      rcases updateKey_ok hg with ⟨h1, rfl⟩ | ⟨sl, i', r', h1, h2, h3, h4, h5, hg'⟩
      · refine ⟨i1, ?_⟩
        intro k hk i r hi hr q hq hm
        refine i2 k hk i r hi hr q hq ?_
        rcases hm with hm | hm
        · rcases List.mem_cons.1 hm with rfl | hm
          · exact absurd hk h1
          · exact .inl hm
        · exact .inr hm
      · obtain ⟨qa, hqa⟩ := Dict.exists_get?_of_mem _ (h.keys a h1)
        rw [hqa] at hg'
        simp only at hg'
        have hget : ∀ k, g'.st.params.items.get? k = if a = k then some { qa with value := r'.value } else g.st.params.items.get? k := by
          intro k
          rw [hg']
          simp only [Params.setItem, Dict.get?_set]
        refine ⟨?_, ?_⟩
        · intro k hk
          rw [i1 k hk, hget, if_neg (by rintro rfl; exact hk h1)]
        · intro k hk i r hi hr q hq hm
          by_cases e : a = k
          · subst e
            rw [hi] at h4; cases h4
            rw [hr] at h5; cases h5
            rw [hqa] at hq; cases hq
            exact i2 a hk i' r' (by rw [f.indices]; exact hi) (by rw [f.rows]; exact hr) { qa with value := r'.value } (by rw [hget, if_pos rfl]) (.inr rfl)
          · refine i2 k hk i r (by rw [f.indices]; exact hi) (by rw [f.rows]; exact hr) q (by rw [hget, if_neg e]; exact hq) ?_
            rcases hm with hm | hm
            · rcases List.mem_cons.1 hm with rfl | hm
              · exact absurd rfl e
              · exact .inl hm
            · exact .inr hm

end Radvel
