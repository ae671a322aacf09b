import Verif.Lemmas.GPCov
import Verif.Lemmas.RVLike

/-! What `logprob` and `predict` of a GP likelihood compute. -/

namespace Radvel
open Real Matrix

/-- After `update_kernel_params` the kernel has the values of the rows. -/
theorem GPInv.has {G : GPLike} {g : GPState} {Ls : List RVLike} (hI : GPInv G g Ls) (hok : (G.update g).2 = .ok ()) {h : String → ℝ}
    (hh : ∀ slot : String, slot.toList ∈ g.kernel.kind.slots → G.Hyper g.st slot (h slot)) : (G.update g).1.kernel.Has h := by
  intro slot hs
  rw [(update_frame G g).kind] at hs
  obtain ⟨k, hk, hn, i, r, hi, hr, hv⟩ := hh slot hs
  rw [← hv]
  exact updateLoop_value _ hI hok hs hk hn hi hr (.inl (Dict.mem_keys_of_get? _ hi))

theorem GPInv.wellNamed {G : GPLike} {g : GPState} {Ls : List RVLike} (hI : GPInv G g Ls) {h : String → ℝ}
    (hh : ∀ slot : String, slot.toList ∈ g.kernel.kind.slots → G.Hyper g.st slot (h slot)) : WellNamed g.kernel.kind G.hnames := by
  intro k hk
  obtain ⟨slot, hs, ht⟩ := hI.bij.total k hk
  obtain ⟨k', hk', hn, _⟩ := hh (String.ofList slot) (by simpa using hs)
  rw [String.toList_ofList] at hn
  obtain ⟨slot', hs', ht'⟩ := hI.bij.total k' hk'
  have e := takes_named hs' hs ht' hn
  subst e
  have := hI.bij.inj k hk k' hk' _ ht ht' hs
  subst this
  exact ⟨_, hs, hn⟩

theorem resids_eq {mod : Curve} {G : GPLike} {s : VState ℝ} {γ : ℝ} {M : ℝ → ℝ} (hg : ∃ r, s.rows[G.rv.gammaIdx]? = some r ∧ r.value = γ)
    (hm : ∀ o ∈ G.rv.obs, mod s o.t = .ok (some (M o.t))) :
    G.resids mod s = .ok (G.rv.obs.map (fun o => some (o.y - γ - M o.t))) := by
  obtain ⟨r, hr, rfl⟩ := hg
  unfold GPLike.resids readRow
  rw [points_ok mod G.rv s (fun t => some (M t)) hm, hr]
  simp [bind, Except.bind, pure, Except.pure, Function.comp_def]

theorem errorbars_eq {L : RVLike} {s : VState ℝ} {jit : ℝ} (hj : ∃ r, s.rows[L.jitIdx]? = some r ∧ r.value = jit) :
    L.errorbars s = .ok (L.obs.map (fun o => √(o.var jit))) := by
  obtain ⟨r, hr, rfl⟩ := hj
  unfold RVLike.errorbars readRow
  rw [hr]; rfl

theorem var_nonneg (o : Obs) (jit : ℝ) : 0 ≤ o.var jit := by unfold Obs.var; positivity

/-- A quasi-periodic kernel with amplitude zero. -/
theorem computeCov_disabled {k : Kernel} {h : String → ℝ} (hh : k.Has h) (hk : k.kind = .quasiPer) (h0 : h "gp_amp" = 0) (h1 : 0 ≤ h "gp_per") (h2 : 0 ≤ h "gp_explength")
    (h3 : 0 ≤ h "gp_perlength") (es : Option (List ℝ)) : k.computeCov es = k.disabled es := by
  obtain ⟨kind, hp, x1, x2, cov⟩ := k
  simp only at hk
  subst hk
  unfold Kernel.computeCov
  simp only
  rw [hh.par (slot := "gp_perlength") (show "gp_perlength".toList ∈ KernelKind.quasiPer.slots by decide), hh.par (slot := "gp_amp") (show "gp_amp".toList ∈ KernelKind.quasiPer.slots by decide), hh.par (slot := "gp_per") (show "gp_per".toList ∈ KernelKind.quasiPer.slots by decide), hh.par (slot := "gp_explength") (show "gp_explength".toList ∈ KernelKind.quasiPer.slots by decide)]
  rw [if_neg (by push Not; exact ⟨h0.ge, h1, h2, h3⟩), if_pos (.inl h0)]

/-- The matrix with errors on the diagonal, entry by entry. -/
theorem addErrors_table (f : ℝ → ℝ → ℝ) (obs : List Obs) (jit : ℝ) :
    ∃ K, addErrors (Mat.table (fun a b => some (f a b)) (obs.map Obs.t) (obs.map Obs.t)) (some (obs.map (fun o => √(o.var jit)))) = K ∧ K.m = obs.length ∧ K.n = obs.length ∧
      ∀ i j : Fin obs.length, K.e i j = some (f obs[i].t obs[j].t + if i = j then obs[i].err ^ 2 + jit ^ 2 else 0) := by
  refine ⟨_, rfl, ?_, ?_, ?_⟩
  · unfold addErrors Mat.table Mat.addDiag; simp
  · unfold addErrors Mat.table Mat.addDiag; simp
  · intro i j
    unfold addErrors Mat.table Mat.addDiag
    simp only [List.length_map, and_self, if_true]
    have hx : ∀ i : Fin obs.length, (obs.map Obs.t).getD i 0 = obs[i].t := by
      intro i; rw [List.getD_eq_getElem _ _ (by simp)]; simp
    have hv : ((obs.map (fun o => √(o.var jit))).map (· ^ 2)).getD i 0 = obs[i].err ^ 2 + jit ^ 2 := by
      rw [List.getD_eq_getElem _ _ (by simp)]
      simp [sq_sqrt (var_nonneg _ _)]
      rfl
    rw [hx, hx]
    by_cases h : i = j
    · subst h; simp only [if_true, hv, Option.map_some]
    · have h' : (i : Nat) ≠ j := fun e => h (Fin.ext e)
      rw [if_neg h', if_neg h]; simp

theorem dataCov_symm (kind : KernelKind) (h : String → ℝ) (obs : List Obs) (jit : ℝ) (i j : Fin obs.length) : dataCov kind h obs jit i j = dataCov kind h obs jit j i := by
  unfold dataCov
  rw [gpCov_symm]
  by_cases e : i = j
  · subst e; rfl
  · rw [if_neg e, if_neg (Ne.symm e)]

theorem GPContext.model' {mod : Curve} (hmod : mod.DictFree) {G : GPLike} {g : GPState} {h : String → ℝ} {γ jit : ℝ} {M : ℝ → ℝ} (hc : GPContext mod G g h γ jit M) :
    ∀ o ∈ G.rv.obs, mod (G.update g).1.st o.t = .ok (some (M o.t)) := by
  have f := update_frame G g
  intro o ho
  rw [hmod g.st _ f.rows f.indices f.basis f.planets]
  exact hc.model o ho

/-- `logprob` for regular hyperparameters, whatever the stored distances are: the value, and the matrix that it leaves behind. -/
theorem logprob_raw {mod : Curve} (hmod : mod.DictFree) {G : GPLike} {g : GPState} {Ls : List RVLike} (hI : GPInv G g Ls) {h : String → ℝ} {γ jit : ℝ}
    {M : ℝ → ℝ} (hc : GPContext mod G g h γ jit M) (hr : Regular g.kernel.kind h) :
    let K := addErrors (Mat.table (fun a b => some (gpCov g.kernel.kind h a b)) g.kernel.x1 g.kernel.x2) (some (G.rv.obs.map (fun o => √(o.var jit))))
    (G.logprob mod g).2 = .ok (gpValue G.rv.obs.length (G.rv.obs.map (fun o => some (o.y - γ - M o.t))) K) ∧ (G.logprob mod g).1.kernel.cov = some K := by
  have f := update_frame G g
  have hok := updateLoop_ok g.st.indices.keys hI (hI.wellNamed hc.hyper)
  have hhas := hI.has hok hc.hyper
  have hm := hc.model' hmod
  unfold GPLike.logprob
  rcases hu : G.update g with ⟨g1, res⟩
  have hok' : res = .ok () := by
    have : (G.update g).2 = .ok () := hok
    rw [hu] at this; exact this
  subst hok'
  rw [hu] at f hhas hm
  simp only at f hhas hm ⊢
  rw [resids_eq (by rw [f.rows]; exact hc.gamma) hm, errorbars_eq (by rw [f.rows]; exact hc.jitter)]
  simp only
  rw [computeCov_regular hhas (by rw [f.kind]; exact hr)]
  unfold Kernel.store
  simp only
  rw [f.x1, f.x2, f.kind]
  exact ⟨rfl, rfl⟩

open Classical in
/-- `logprob` for regular hyperparameters, with the stored distances at the data times. -/
theorem logprob_regular {mod : Curve} (hmod : mod.DictFree) {G : GPLike} {g : GPState} {Ls : List RVLike} (hI : GPInv G g Ls) (hd : g.AtData G) {h : String → ℝ} {γ jit : ℝ}
    {M : ℝ → ℝ} (hc : GPContext mod G g h γ jit M) (hr : Regular g.kernel.kind h) :
    (G.logprob mod g).2 = .ok (if (dataCov g.kernel.kind h G.rv.obs jit).PosDef then
      .fin (log (mvnDensity (dataCov g.kernel.kind h G.rv.obs jit) (fun i => G.rv.obs[i].y - γ - M G.rv.obs[i].t))) else .neg) := by
  rw [(logprob_raw hmod hI hc hr).1, hd.1, hd.2]
  obtain ⟨K, hK, hKm, hKn, hKe⟩ := addErrors_table (gpCov g.kernel.kind h) G.rv.obs jit
  have e1 : G.x = G.rv.obs.map Obs.t := rfl
  rw [e1, hK]
  congr 1
  refine gpValue_spec K hKm hKn _ hKe (dataCov_symm _ _ _ _) _ (by simp) _ ?_
  intro i
  rw [List.getD_eq_getElem _ _ (by simp)]; simp

/-- `logprob` with a disabled quasi-periodic kernel: the value comes from whatever matrix was stored before. -/
theorem logprob_disabled {mod : Curve} (hmod : mod.DictFree) {G : GPLike} {g : GPState} {Ls : List RVLike} (hI : GPInv G g Ls) (hd : g.AtData G) {h : String → ℝ} {γ jit : ℝ}
    {M : ℝ → ℝ} (hc : GPContext mod G g h γ jit M) (hk : g.kernel.kind = .quasiPer) (h0 : h "gp_amp" = 0) (h1 : 0 ≤ h "gp_per") (h2 : 0 ≤ h "gp_explength")
    (h3 : 0 ≤ h "gp_perlength") :
    (G.logprob mod g).2 = .ok (match g.kernel.cov with
      | none => .neg
      | some K => gpValue G.rv.obs.length (G.rv.obs.map (fun o => some (o.y - γ - M o.t))) K) := by
  have f := update_frame G g
  have hok := updateLoop_ok g.st.indices.keys hI (hI.wellNamed hc.hyper)
  have hhas := hI.has hok hc.hyper
  have hm := hc.model' hmod
  unfold GPLike.logprob
  rcases hu : G.update g with ⟨g1, res⟩
  have hok' : res = .ok () := by
    have : (G.update g).2 = .ok () := hok
    rw [hu] at this; exact this
  subst hok'
  rw [hu] at f hhas hm
  simp only at f hhas hm ⊢
  rw [resids_eq (by rw [f.rows]; exact hc.gamma) hm, errorbars_eq (by rw [f.rows]; exact hc.jitter)]
  simp only
  rw [computeCov_disabled hhas (f.kind.trans hk) h0 h1 h2 h3]
  unfold Kernel.disabled
  simp only
  rw [if_pos (by rw [f.x1, hd.1]; simp [GPLike.x])]
  simp only
  rw [f.cov]
  cases g.kernel.cov <;> rfl

/-- Entry of a table. -/
theorem table_entry (f : ℝ → ℝ → Option ℝ) (x y : List ℝ) (i : Fin x.length) (j : Fin y.length) : (Mat.table f x y).e i j = f x[i] y[j] := by
  unfold Mat.table
  simp only
  rw [List.getD_eq_getElem _ _ i.2, List.getD_eq_getElem _ _ j.2]; rfl

/-- `predict` for regular hyperparameters and a positive definite covariance matrix. -/
theorem predict_regular {mod : Curve} (hmod : mod.DictFree) {G : GPLike} {g : GPState} {Ls : List RVLike} (hI : GPInv G g Ls) {h : String → ℝ} {γ jit : ℝ}
    {M : ℝ → ℝ} (hc : GPContext mod G g h γ jit M) (hr : Regular g.kernel.kind h) (hpd : (dataCov g.kernel.kind h G.rv.obs jit).PosDef) (xp : List ℝ) :
    ∃ g' mu sd, G.predict mod xp g = (g', .ok (mu, sd)) ∧ mu.length = xp.length ∧ sd.length = xp.length ∧
      ∀ (i : Nat) (hi : i < xp.length),
        mu[i]? = some ((fun j : Fin G.rv.obs.length => gpCov g.kernel.kind h xp[i] G.rv.obs[j].t) ⬝ᵥ
          ((dataCov g.kernel.kind h G.rv.obs jit)⁻¹ *ᵥ (fun j => G.rv.obs[j].y - γ - M G.rv.obs[j].t))) ∧
        sd[i]? = some (npSqrt (gpCov g.kernel.kind h xp[i] xp[i] - (fun j : Fin G.rv.obs.length => gpCov g.kernel.kind h xp[i] G.rv.obs[j].t) ⬝ᵥ
          ((dataCov g.kernel.kind h G.rv.obs jit)⁻¹ *ᵥ (fun j : Fin G.rv.obs.length => gpCov g.kernel.kind h xp[i] G.rv.obs[j].t)))) := by
  have f := update_frame G g
  have hok := updateLoop_ok g.st.indices.keys hI (hI.wellNamed hc.hyper)
  have hhas := hI.has hok hc.hyper
  have hm := hc.model' hmod
  unfold GPLike.predict
  rcases hu : G.update g with ⟨g1, res⟩
  have hok' : res = .ok () := by
    have : (G.update g).2 = .ok () := hok
    rw [hu] at this; exact this
  subst hok'
  rw [hu] at f hhas hm
  simp only at f hhas hm ⊢
  rw [resids_eq (by rw [f.rows]; exact hc.gamma) hm, errorbars_eq (by rw [f.rows]; exact hc.jitter)]
  simp only
  have reg : ∀ (k : Kernel) (es : Option (List ℝ)), KFrame g1.kernel k → k.computeCov es = k.store (Mat.table (fun a b => some (gpCov g.kernel.kind h a b)) k.x1 k.x2) es := by
    intro k es hk
    have e : k.kind = g.kernel.kind := hk.kind.trans f.kind
    rw [← e]
    exact computeCov_regular (by intro slot hs; rw [hk.hp]; exact hhas slot (by rw [← hk.kind]; exact hs)) (by rw [e]; exact hr) es
  rw [reg _ _ (KFrame.dist _ _ _)]
  unfold Kernel.store
  simp only
  obtain ⟨K, hK, hKm, hKn, hKe⟩ := addErrors_table (gpCov g.kernel.kind h) G.rv.obs jit
  have e1 : G.x = G.rv.obs.map Obs.t := rfl
  have hK' : addErrors (Mat.table (fun a b => some (gpCov g.kernel.kind h a b)) (g1.kernel.setDistances G.x G.x).x1 (g1.kernel.setDistances G.x G.x).x2)
      (some (G.rv.obs.map (fun o => √(o.var jit)))) = K := hK
  rw [hK']
  have hnan : ¬ K.hasNan := by
    rintro ⟨i, j, hi, hj, hh⟩
    rw [hKm] at hi; rw [hKn] at hj
    have := hKe ⟨i, hi⟩ ⟨j, hj⟩
    simp only at this
    rw [hh] at this; cases this
  rw [if_neg hnan, reg (Kernel.setDistances { (g1.kernel.setDistances G.x G.x) with cov := some K } xp G.x) none ⟨rfl, rfl⟩]
  unfold Kernel.store addErrors
  simp only
  set Ks : Mat := Mat.table (fun a b => some (gpCov g.kernel.kind h a b)) (Kernel.setDistances { (g1.kernel.setDistances G.x G.x) with cov := some K } xp G.x).x1
    (Kernel.setDistances { (g1.kernel.setDistances G.x G.x) with cov := some K } xp G.x).x2 with hKs
  have hKsm : Ks.m = xp.length := rfl
  have hKsn : Ks.n = G.rv.obs.length := by rw [hKs]; show (G.rv.obs.map Obs.t).length = _; simp
  obtain ⟨u1, u2⟩ := upper_of_symm K (dataCov g.kernel.kind h G.rv.obs jit) hKe (dataCov_symm _ _ _ _)
  have hpd' : (K.upper K.n).PosDef := by
    have : ∀ n, n = G.rv.obs.length → (K.upper n).PosDef := by rintro n rfl; rw [u2]; exact hpd
    exact this _ hKn
  rw [if_neg (not_not.2 hpd')]
  have hsz : ¬ (none ∈ G.rv.obs.map (fun o => some (o.y - γ - M o.t)) ∨ (G.rv.obs.map (fun o => some (o.y - γ - M o.t))).length ≠ K.n ∨ Ks.n ≠ K.n) := by
    rw [hKn, hKsn]; simp
  rw [if_neg hsz, reg (Kernel.setDistances { (Kernel.setDistances { (g1.kernel.setDistances G.x G.x) with cov := some K } xp G.x) with cov := some Ks } xp xp) none ⟨rfl, rfl⟩]
  unfold Kernel.store addErrors
  simp only
  have hKsnan : ¬ Ks.hasNan := by
    rintro ⟨i, j, hi, hj, hh⟩
    simp [hKs, Mat.table] at hh
  rw [if_neg hKsnan]
  refine ⟨_, _, _, rfl, by simp [hKsm], by simp [hKsm], ?_⟩
  intro i hi
  have hKse : ∀ (j : Fin G.rv.obs.length), Ks.e i j = some (gpCov g.kernel.kind h xp[i] G.rv.obs[j].t) := by
    intro j
    rw [hKs]
    unfold Mat.table Kernel.setDistances
    simp only
    rw [List.getD_eq_getElem _ _ hi, e1, List.getD_eq_getElem _ _ (by simp)]
    simp
  have hi' : i < Ks.m := by rw [hKsm]; exact hi
  constructor
  · rw [List.getElem?_ofFn, dif_pos hi']
    congr 1
    unfold predictMean
    have key : ∀ n, n = G.rv.obs.length → (Ks.real Ks.m n *ᵥ ((K.upper n)⁻¹ *ᵥ vec n (G.rv.obs.map (fun o => some (o.y - γ - M o.t))))) ⟨i, hi'⟩ =
        (fun j : Fin G.rv.obs.length => gpCov g.kernel.kind h xp[i] G.rv.obs[j].t) ⬝ᵥ
          ((dataCov g.kernel.kind h G.rv.obs jit)⁻¹ *ᵥ (fun j => G.rv.obs[j].y - γ - M G.rv.obs[j].t)) := by
      rintro n rfl
      rw [u2]
      have hv : vec G.rv.obs.length (G.rv.obs.map (fun o => some (o.y - γ - M o.t))) = fun j => G.rv.obs[j].y - γ - M G.rv.obs[j].t := by
        funext j; unfold vec; rw [List.getD_eq_getElem _ _ (by simp)]; simp
      rw [hv]
      show (fun j => Ks.real Ks.m G.rv.obs.length ⟨i, hi'⟩ j) ⬝ᵥ _ = _
      congr 1
      funext j
      unfold Mat.real; simp only [hKse]; rfl
    exact key _ hKn
  · rw [List.getElem?_map, List.getElem?_ofFn, dif_pos hi', Option.map_some]
    congr 2
    show Mat.real _ _ _ ⟨i, hi'⟩ ⟨i, hi'⟩ - (Ks.real Ks.m K.n * ((K.upper K.n)⁻¹ * (Ks.real Ks.m K.n)ᵀ)) ⟨i, hi'⟩ ⟨i, hi'⟩ = _
    have key : ∀ n, n = G.rv.obs.length → (Ks.real Ks.m n * ((K.upper n)⁻¹ * (Ks.real Ks.m n)ᵀ)) ⟨i, hi'⟩ ⟨i, hi'⟩ =
        (fun j : Fin G.rv.obs.length => gpCov g.kernel.kind h xp[i] G.rv.obs[j].t) ⬝ᵥ
          ((dataCov g.kernel.kind h G.rv.obs jit)⁻¹ *ᵥ (fun j : Fin G.rv.obs.length => gpCov g.kernel.kind h xp[i] G.rv.obs[j].t)) := by
      rintro n rfl
      rw [u2]
      have hrow : (Ks.real Ks.m G.rv.obs.length) ⟨i, hi'⟩ = fun j : Fin G.rv.obs.length => gpCov g.kernel.kind h xp[i] G.rv.obs[j].t := by
        funext j; unfold Mat.real; simp only [hKse]; rfl
      rw [← hrow]
      simp only [Matrix.mul_apply, dotProduct, Matrix.mulVec, Matrix.transpose_apply]
    rw [key _ hKn]
    congr 1
    unfold Mat.real Mat.table Kernel.setDistances
    simp only
    rw [List.getD_eq_getElem _ _ hi]; rfl

end Radvel
