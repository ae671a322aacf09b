import Verif.Lemmas.FileDecorr
import Verif.Props.RVLike

/-!
# C154 with decorrelation

The posterior that a setup file defines when `--decorr` is given.
-/

namespace Radvel

open Real ProbabilityTheory

/-- Copying the dictionary of a fresh state into the vector changes nothing. -/
theorem Fresh.sync {s : VState ℝ} (h : Fresh s) : s.dictToVector = .ok s := by
  obtain ⟨s', a1, a2, a3, a4, a5, a6⟩ := sync_fresh h.inv h.ui
  have hr : s'.rows = s.rows := by
    apply List.ext_getElem?
    intro i
    by_cases hi : i < s.rows.length
    · by_cases hk : ∃ k ∈ s.params.items.keys, s.indices.get? k = some i
      · obtain ⟨k, k1, k2⟩ := hk
        obtain ⟨q, hq⟩ := Dict.exists_get?_of_mem _ k1
        rw [h.rows k q i hq k2]
        exact a2.rows k q i (by rw [a3]; exact hq) (by rw [a4]; exact k2)
      · push Not at hk
        rw [h.blank i hi hk]
        exact a2.blank i (by rw [a6]; exact hi) (by rw [a3, a4]; exact hk)
    · rw [List.getElem?_eq_none (by omega), List.getElem?_eq_none (by omega)]
  rw [a1]
  congr 1
  cases s; cases s'
  simp only at a3 a4 a5 hr
  subst a3 a4 a5 hr
  rfl

theorem analytic_more {p : Params ℝ} (hu : UserParams p) {s t : VState ℝ} (hs : VState.init p = .ok s) (h : Extends s t)
    (hinst : ∀ g x, t.indices.get? (.inst g x) = s.indices.get? (.inst g x)) {suffix : String} {i : Nat} (hi : t.indices.get? (.inst .gamma suffix) = some i)
    (hk : Key.inst .gamma suffix ∈ p.items.keys) : AnalyticGamma t i ↔ Marginalised p (.inst .gamma suffix) := by
  have hi' : s.indices.get? (.inst .gamma suffix) = some i := by rw [← hinst]; exact hi
  rw [← marginal_iff hu hs hi' hk]
  obtain ⟨q, hq⟩ := Dict.exists_get?_of_mem _ hk
  obtain ⟨j, h1, h2⟩ := init_row hu hs hq
  rw [hi'] at h1; cases h1
  unfold AnalyticGamma
  simp only [hinst, h.row h2, h2]

theorem coefs_related (insts vars : List String) (c : String → String → ℝ) :
    List.Forall₂ (fun k x => ∃ i ∈ insts, ∃ d ∈ vars, k = coefKey i d ∧ x = c i d) (coefKeys insts vars) (coefVals insts vars c) := by
  unfold coefKeys coefVals
  have key : ∀ l : List String, (∀ i ∈ l, i ∈ insts) → List.Forall₂ (fun k x => ∃ i ∈ insts, ∃ d ∈ vars, k = coefKey i d ∧ x = c i d) (l.flatMap fun i => vars.map (coefKey i)) (l.flatMap fun i => vars.map (c i)) := by
    intro l
    induction l with
    | nil => intro _; exact .nil
    | cons i t ih =>
      intro h
      rw [List.flatMap_cons, List.flatMap_cons]
      refine List.rel_append ?_ (ih fun j hj => h j (List.mem_cons_of_mem _ hj))
      rw [List.forall₂_map_left_iff, List.forall₂_map_right_iff, List.forall₂_same]
      exact fun d hd => ⟨i, h i List.mem_cons_self, d, hd, rfl, rfl⟩
  exact key insts fun _ h => h

theorem coefVals_length (insts vars : List String) (c : String → String → ℝ) : (coefVals insts vars c).length = (coefKeys insts vars).length := (coefs_related insts vars c).length_eq.symm

theorem rowTerm_eq (rows : List DataRow) (vars : List String) (c : String → ℝ) (L : RVLike) (h : L.obs = rows.map DataRow.obs) (r : DataRow) : decorrTerm L vars c r.obs = rowTerm rows vars c r := by
  unfold decorrTerm rowTerm
  simp only [h, List.all_map, List.map_map, Function.comp_def]
  rfl

theorem gaussian_centre (m x : ℝ) (v : NNReal) : gaussianPDFReal 0 v (x - m) = gaussianPDFReal m v x := by
  simp [gaussianPDFReal]

/-- The value of one likelihood of the file after writing an array. -/
theorem decorrLike_value {P : SetupFile} (hu : UserParams P.params) {vars : List String} {s s' s2 : VState ℝ} (xs : List ℝ) (hs' : VState.init (withFree P.params xs) = .ok s')
    (hext : Extends s' s2) (hinst : ∀ g x, s2.indices.get? (.inst g x) = s'.indices.get? (.inst g x))
    {i : String} {L : RVLike} (hL : DecorrLike P vars i L) (hc : CleanVars [i] vars) (c : String → String → ℝ) (hread : ∀ d ∈ vars, readPar s2 (coefKey i d) = .ok (c i d))
    (hg : Key.inst .gamma ("_" ++ i) ∈ P.params.items.keys) (hj : Key.inst .jit ("_" ++ i) ∈ P.params.items.keys)
    (hne : ∃ d ∈ P.data, d.tel = i) (hb : Built s2) (hon : L.On s2)
    (orb : Nat → Synth) (ho : Elements (withFree P.params xs) orb) (drive : Drive) (tb : ℝ) (v : Nat → ℝ → ℝ)
    (hv : ∀ d ∈ P.data, d.tel = i → ∀ m, 1 ≤ m → m ≤ P.params.numPlanets → drive d.t (orb m) = some (v m d.t))
    (he : ∀ d ∈ P.data, d.tel = i → d.err ≠ 0 ∨ valueAt P.params xs (.inst .jit ("_" ++ i)) ≠ 0) :
    ∃ l, LikeEval.value (L.logprob fun s t => modelCall drive tb s none t) s2 = .ok (.fin l) ∧
      exp l = decorrDensity P vars c xs (fileVelocity P.params xs tb v) i * decorrBias P vars c xs i := by
  have hu' := withFree_user hu xs
  obtain ⟨l1, l2, l3, l4⟩ := hL
  have hrows : P.rowsOf i = P.data.filter fun r => r.tel = i := by
    unfold SetupFile.rowsOf
    apply List.filter_congr
    intro r _
    by_cases h : r.tel = i <;> simp [h]
  rw [hrows] at l1
  set rows := P.data.filter fun r => r.tel = i with hrw
  have hmem : ∀ o ∈ L.obs, ∃ d ∈ P.data, d.tel = i ∧ o = d.obs := by
    intro o hm
    rw [l1] at hm
    obtain ⟨d, h1, h2⟩ := List.mem_map.1 hm
    obtain ⟨h3, h4⟩ := List.mem_filter.1 h1
    exact ⟨d, h3, by simpa using h4, h2.symm⟩
  have hm : ModelIs (fun s t => modelCall drive tb s none t) L s2 (fileVelocity P.params xs tb v) := by
    intro o hm
    obtain ⟨d, d1, d2, rfl⟩ := hmem o hm
    simp only
    apply modelCall_more hext
    have := C25_sum (withFree P.params xs) hu' orb ho drive tb d.t (fun m => v m d.t) (fun m hm => hv d d1 d2 m hm.1 hm.2)
    unfold curve at this
    rw [hs'] at this
    simp only at this
    show modelCall drive tb s' none d.t = _
    rw [this]
    have htr : ∀ k, trendOf (withFree P.params xs) k = valueAt P.params xs k := by
      intro k
      unfold trendOf
      rw [withFree_get?]
      unfold valueAt isFree
      cases P.params.items.get? k <;> simp
    rw [htr, htr]
    rfl
  have rj : readPar s2 (.inst .jit L.suffix) = .ok (valueAt P.params xs (.inst .jit ("_" ++ i))) := by
    rw [l2]
    exact hext.read (withFree_read hu xs hs' hj)
  have rg : readPar s2 (.inst .gamma L.suffix) = .ok (valueAt P.params xs (.inst .gamma ("_" ++ i))) := by
    rw [l2]
    exact hext.read (withFree_read hu xs hs' hg)
  have hana : AnalyticGamma s2 L.gammaIdx ↔ Marginalised P.params (.inst .gamma ("_" ++ i)) := by
    have h2 := hon.gamma
    rw [l2] at h2
    rw [analytic_more hu' hs' hext hinst h2 (by rw [withFree_keys]; exact hg), withFree_marginal]
  have herr : ∀ o ∈ L.obs, o.err ≠ 0 ∨ valueAt P.params xs (.inst .jit ("_" ++ i)) ≠ 0 := by
    intro o hm
    obtain ⟨d, d1, d2, rfl⟩ := hmem o hm
    exact he d d1 d2
  have hno : L.obs ≠ [] := by
    obtain ⟨d, d1, d2⟩ := hne
    rw [l1]
    intro hc
    have : d ∈ rows := List.mem_filter.2 ⟨d1, by simpa using d2⟩
    rw [List.map_eq_nil_iff] at hc
    rw [hc] at this
    cases this
  obtain ⟨s3, γ, r1, r2, r3⟩ := C31_own_coefficient_partial _ L s2 hb hon _ hm vars (by rw [l3, l2]) hc.nodup (fun d hd => by rw [l4]; exact List.mem_map_of_mem hd) hc.noU
    (.inr ⟨i.toList, by rw [l2]; simp⟩) (by rw [l2]; exact hc.clean i (by simp)) (c i) (by rw [l2]; exact hread)
  change L.residuals _ s2 = .ok (s3, L.obs.map fun o => some (o.y - γ - fileVelocity P.params xs tb v o.t - decorrTerm L vars (c i) o)) at r3
  unfold decorrDensity decorrBias decorrRows
  simp only [← hrw]
  have hobs : (rows.map fun r => ({ r with y := r.y - rowTerm rows vars (c i) r } : DataRow)).map DataRow.obs = L.obs.map fun o => { o with y := o.y - decorrTerm L vars (c i) o } := by
    rw [l1, List.map_map, List.map_map]
    apply List.map_congr_left
    intro r _
    simp only [Function.comp, rowTerm_eq rows vars (c i) L l1]
    rfl
  by_cases ha : Marginalised P.params (.inst .gamma ("_" ++ i))
  · rw [if_pos ha, if_pos ha]
    obtain ⟨l, e1, e2⟩ := C27_marginal_general _ L s2 hb hon _ hm _ rj (hana.2 ha) hno herr s3 _ γ r1 r3
    refine ⟨l, by unfold LikeEval.value; rw [e1], ?_⟩
    rw [e2]
    simp only [rowsDensity_white, hobs]
    congr 4
    · rw [l1, List.map_map]
      simp only [Function.comp_def, rowTerm_eq rows vars (c i) L l1]
      rfl
    · rw [l1, List.map_map]
      rfl
  · rw [if_neg ha, if_neg ha, mul_one]
    have hna : ¬ AnalyticGamma s2 L.gammaIdx := fun h => ha (hana.1 h)
    have hs3 := r2 hna
    subst hs3
    have hγ : γ = valueAt P.params xs (.inst .gamma ("_" ++ i)) := by
      rw [rg] at r1
      exact (Except.ok.inj r1).symm
    obtain ⟨l, e1, e2⟩ := C26_residuals _ L s3 s3 hb hon _ hm _ rj hna herr _ r3
    refine ⟨l, by unfold LikeEval.value; rw [e1], ?_⟩
    rw [e2, rowsDensity_white, hobs, ← hγ]
    unfold whiteDensity
    rw [List.map_map]
    congr 1
    apply List.map_congr_left
    intro o _
    simp only [Function.comp]
    refine Eq.trans ?_ (gaussian_centre _ _ _)
    congr 1
    ring

/-- C154 with decorrelation (missing: as in `C154_posterior_partial`; variables for which decorrelation fails (C31), repeated instruments, and priors on the coefficients): take any setup file
with the decorrelation variables `vars` and the posterior made from it with `--decorr`, with any priors on its parameters, and anything that was asked of the posterior before. Then there is one
more free parameter for every instrument and variable, after those of the file, and `logprob_array` is the sum of the priors and the logarithm of the density of the velocities from which each
instrument's decorrelation terms were subtracted; if an offset is marginalised, that density is too low by the factor of C27. -/
theorem C154_decorr_partial (dflt : ℝ) (P : SetupFile) (hu : UserParams P.params) (hj : ∀ k, Key.inst .logjit k ∉ P.params.items.keys) (hh : P.hnames = none) (vars : List String)
    (hvars : P.decorrVars = some vars) (hi : P.instnames.Nodup) (hc : CleanVars P.instnames vars)
    (r : SetupPost) (hr : P.initialize dflt true = .ok r) (p : PostState) (hp : PostState.init ⟨r.st, none⟩ = .ok p) (priors : List Prior) (hq : ∀ q ∈ priors, q.OfFile P.params)
    (drive : Drive) (tb : ℝ) (Ls : List RVLike) (hL : r.likes.map Prod.snd = Ls.map InstLike.rv) (calls : List PostCall)
    (xs : List ℝ) (hx : xs.length = (freeOrder P.params).length) (c : String → String → ℝ) (orb : Nat → Synth) (ho : Elements (withFree P.params xs) orb) (v : Nat → ℝ → ℝ)
    (hv : ∀ d ∈ P.data, d.tel ∈ P.instnames → ∀ m, 1 ≤ m → m ≤ P.params.numPlanets → drive d.t (orb m) = some (v m d.t))
    (he : ∀ d ∈ P.data, d.tel ∈ P.instnames → d.err ≠ 0 ∨ valueAt P.params xs (.inst .jit ("_" ++ d.tel)) ≠ 0)
    (s' : VState ℝ) (hs' : VState.init (withFree P.params xs) = .ok s') (vals : List Fl) (hvals : PriorValues s' priors vals) :
    let like := compositeLogprob (Ls.map fun L => L.logprob fun s t => modelCall drive tb s none t)
    let result := (({ p with priors := priors }.runAll like calls).logprobArray like (xs ++ coefVals P.instnames vars c)).2
    (∀ x, vals.sum = .fin x → ∃ l, result = .ok (.fin (x + l)) ∧
      exp l = (P.instnames.map fun i => decorrDensity P vars c xs (fileVelocity P.params xs tb v) i * decorrBias P vars c xs i).prod) ∧
    ((∀ x, vals.sum ≠ .fin x) → result = .ok vals.sum) := by
  intro like result
  obtain ⟨hcs, hfresh, hkeys, Ls', b1, b2, b3⟩ := initialize_decorr hu hj hh hvars hi hc hr
  have hLs : Ls' = Ls := by
    rw [hL] at b1
    exact (List.map_injective_iff.2 (fun _ _ h => by cases h; rfl) b1).symm
  subst hLs
  have hp' : p = { st := r.st, likeCache := none, postCache := some (freeRows r.st.rows), priors := [] } := by
    unfold PostState.init at hp
    rw [hfresh.sync] at hp
    cases hp
    rfl
  obtain ⟨s0, z1, z2, z3, z4, z5⟩ := hu.model
  obtain ⟨s'', y1, y2, y3, y4, y5⟩ := (withFree_user hu xs).model
  rw [hs'] at y1; cases y1
  have hother : ∀ k ∈ coefKeys P.instnames vars, ∃ x, k = .other x := fun k hk => coefKeys_other hk
  have hnd : (coefKeys P.instnames vars).Nodup := coefKeys_nodup hi hc.nodup hc.noU
  have hrows := decorr_rows hu hnd hother hcs hfresh z1
  have hidx : initIndexDict (withFree P.params xs) = initIndexDict P.params := by
    unfold initIndexDict
    rw [withFree_keys]
    rfl
  have hold : ∀ k, (∀ x, k ≠ .other x) → r.st.indices.get? k = (initIndexDict P.params).get? k := by
    intro k hk
    rw [hcs.idx, if_neg]
    intro hm
    obtain ⟨x, rfl⟩ := hother k hm
    exact hk x rfl
  have hold2 : ∀ k i, (initIndexDict P.params).get? k = some i → r.st.indices.get? k = some i := by
    intro k i hk
    rw [hold k, hk]
    rintro x rfl
    rw [initIndexDict_get _ hu.good.nodup] at hk
    cases hk
  have hb0 : r.st.params.basis = P.params.basis := by rw [hcs.params]
  have hn0 : r.st.params.numPlanets = P.params.numPlanets := by rw [hcs.params]
  have hext0 : Extends s0 r.st := ⟨⟨_, hrows⟩, fun k i hk => hold2 k i (by rw [← z5]; exact hk), by rw [hb0, z4], by rw [hn0, z4]⟩
  have hmod := modelCall_orbital drive tb
  -- history
  have hhist := (C34_history_partial (fun s t => modelCall drive tb s none t) hmod Ls' { p with priors := priors } (by rw [hp']; exact b3) (by rw [hp']; exact .inl rfl)
    (by
      intro q hqm
      obtain ⟨q1, q2, q3⟩ := hq q hqm
      rw [hp']
      refine ⟨?_, ?_, ?_⟩
      · intro k hk
        simp only
        rw [hcs.keys]
        rcases q1 k hk with h | h
        · exact .inl (List.mem_append_left _ h)
        · exact .inr h
      · simp only; rw [hn0]; exact q2
      · intro suffix i hk hi ha
        rcases q1 _ hk with h | h | h
        · exact q3 suffix hk ((analytic_more hu z1 hext0 (fun g x => by rw [hold _ (by simp), z5]) hi h).1 ha)
        · cases h
        · cases h) calls (xs ++ coefVals P.instnames vars c)).1
  -- the array
  have hlen : s'.rows.length = s0.rows.length := by
    have h1 := (file_rows hu z1).1
    have h2 := (file_rows (withFree_user hu xs) hs').1
    rw [withFree_order] at h2
    rw [h1, h2]
  have hcl := coefVals_length P.instnames vars c
  have hw : writeVals (freeRows r.st.rows) (xs ++ coefVals P.instnames vars c) r.st.rows =
      (s'.rows ++ (coefVals P.instnames vars c).map fun y => { value := y, vary := true, scale := 0, linear := false }, none) := by
    have hz : ((coefKeys P.instnames vars).map fun _ => ({ value := 0, vary := true, scale := 0, linear := false } : Row ℝ)) =
        (coefVals P.instnames vars c).map fun _ => { value := 0, vary := true, scale := 0, linear := false } := by
      rw [List.map_const', List.map_const', hcl]
    rw [hrows, hz, freeRows_append _ _ (by simp), writeVals_left (write_file hu xs hx z1 hs'), ← hlen, List.length_map, writeVals_right]
  set s2 : VState ℝ := { r.st with rows := s'.rows ++ (coefVals P.instnames vars c).map fun y => { value := y, vary := true, scale := 0, linear := false } } with hs2
  have hset : result = logprob (LikeEval.value like) s2 priors := by
    refine hhist.trans ?_
    rw [hp']
    simp only [PostState.logprobArray, PostState.setFast, PostState.likeState, LikeState.setVaryParams, LikeState.refreshFor, LikeState.listVaryParams, Option.getD_some, hw, if_true]
    rfl
  have hext : Extends s' s2 := ⟨⟨_, rfl⟩, fun k i hk => hold2 k i (by rw [← hidx, ← y5]; exact hk), by rw [y4]; exact hb0, by rw [y4]; exact hn0⟩
  have hinst : ∀ g x, s2.indices.get? (.inst g x) = s'.indices.get? (.inst g x) := by
    intro g x
    rw [y5, hidx]
    exact hold _ (by simp)
  have hb3 : Likes s2 Ls' := .write _ _ _ b3 (by rw [hrows]; simp [hlen, hcl])
  obtain ⟨hbuilt, hon⟩ := hb3.built
  have hread : ∀ i ∈ P.instnames, ∀ d ∈ vars, readPar s2 (coefKey i d) = .ok (c i d) := by
    intro i him d hd
    have hm : coefKey i d ∈ coefKeys P.instnames vars := by
      unfold coefKeys
      exact List.mem_flatMap.2 ⟨i, him, List.mem_map_of_mem hd⟩
    have h1 : s2.indices.get? (coefKey i d) = some (vectorSize P.params.items + (coefKeys P.instnames vars).idxOf (coefKey i d)) := by
      show r.st.indices.get? _ = _
      rw [hcs.idx, if_pos hm]
    have h2 : (coefKeys P.instnames vars)[(coefKeys P.instnames vars).idxOf (coefKey i d)]? = some (coefKey i d) := by
      rw [List.getElem?_eq_getElem (List.idxOf_lt_length_of_mem hm), List.getElem_idxOf]
    obtain ⟨y, w1, j, hj', e, he', w2, w3⟩ := forall2_getElem? (coefs_related P.instnames vars c) _ _ h2
    obtain ⟨rfl, rfl⟩ := coefKey_inj hc.noU hd he' w2
    subst w3
    have hsz : s'.rows.length = vectorSize P.params.items := by
      rw [hlen, (file_rows hu z1).1, fileOrder_length hu]
    unfold readPar
    rw [h1]
    simp only [hs2]
    rw [List.getElem?_append_right (by omega), hsz, Nat.add_sub_cancel_left, List.getElem?_map, w1]
    rfl
  have hpv : PriorValues s2 priors vals := by
    have key : ∀ (ps : List Prior) (ws : List Fl), (∀ q ∈ ps, q.OfFile P.params) → PriorValues s' ps ws → PriorValues s2 ps ws := by
      intro ps ws h1 h2
      unfold PriorValues at h2 ⊢
      induction h2 with
      | nil => exact .nil
      | cons h3 _ ih =>
        refine .cons ?_ (ih fun q hq => h1 q (List.mem_cons_of_mem _ hq))
        obtain ⟨q1, q2, q3⟩ := h1 _ List.mem_cons_self
        refine prior_more y2 hext _ ?_ ?_ h3
        · intro k hk
          rcases q1 k hk with h | h
          · exact ⟨_, withFree_read hu xs hs' h⟩
          · have hlt := y2.inv.size
            rcases h with rfl | rfl
            · exact ⟨_, by unfold readPar; rw [y2.inv.dvdtIdx]; simp only; rw [List.getElem?_eq_getElem (by omega)]⟩
            · exact ⟨_, by unfold readPar; rw [y2.inv.curvIdx]; simp only; rw [List.getElem?_eq_getElem (by omega)]⟩
        · rw [y4]; exact q2
    exact key _ _ hq hvals
  obtain ⟨c1, c2⟩ := C47_sum (LikeEval.value like) s2 priors vals hpv
  rw [hset]
  refine ⟨fun x hxs => ?_, fun hn => c2 hn⟩
  have hall : List.Forall₂ (fun i L => ∃ l, LikeEval.value (L.logprob fun s t => modelCall drive tb s none t) s2 = .ok (.fin l) ∧
      exp l = decorrDensity P vars c xs (fileVelocity P.params xs tb v) i * decorrBias P vars c xs i) P.instnames Ls' := by
    have key : ∀ (is : List String) (Ms : List RVLike), (∀ i ∈ is, i ∈ P.instnames) → (∀ L ∈ Ms, L.On s2) → List.Forall₂ (DecorrLike P vars) is Ms →
        List.Forall₂ (fun i L => ∃ l, LikeEval.value (L.logprob fun s t => modelCall drive tb s none t) s2 = .ok (.fin l) ∧
          exp l = decorrDensity P vars c xs (fileVelocity P.params xs tb v) i * decorrBias P vars c xs i) is Ms := by
      intro is Ms h1 h2 h3
      induction h3 with
      | nil => exact .nil
      | cons h4 _ ih =>
        refine .cons ?_ (ih (fun i hi => h1 i (List.mem_cons_of_mem _ hi)) (fun L hL => h2 L (List.mem_cons_of_mem _ hL)))
        have him := h1 _ List.mem_cons_self
        exact decorrLike_value (s := r.st) hu xs hs' hext hinst h4 ⟨hc.nodup, hc.noU, fun i hi => by rw [List.mem_singleton.1 hi]; exact hc.clean _ him⟩ c (hread _ him) (hkeys _ him).2.1 (hkeys _ him).2.2
          (hkeys _ him).1 hbuilt (h2 _ List.mem_cons_self) orb ho drive tb v
          (fun d d1 d2 => hv d d1 (by rw [d2]; exact him)) (fun d d1 d2 => by rw [← d2]; exact he d d1 (by rw [d2]; exact him))
    exact key _ _ (fun _ h => h) hon b2
  obtain ⟨ls, h1, h2⟩ := exists_values (f := fun _ L l => LikeEval.value (L.logprob fun s t => modelCall drive tb s none t) s2 = .ok (.fin l)) hall
  have h3 : List.Forall₂ (fun (L : RVLike) w => LikeEval.value (L.logprob fun s t => modelCall drive tb s none t) s2 = .ok w) Ls' (ls.map Fl.fin) := by
    rw [List.forall₂_map_right_iff]
    exact h1.imp fun _ _ ⟨_, _, h⟩ => h
  have h4 := C28_sum _ hmod s2 Ls' hb3 _ h3
  rw [sum_fin_list] at h4
  refine ⟨ls.sum, ?_, h2⟩
  rw [c1 x _ hxs h4, hxs]
  rfl

/-- The example file with two decorrelation variables. -/
noncomputable def exampleDecorr : SetupFile :=
  { exampleSetup ["j", "k"] none with
    data := [{ tel := "j", t := 1, y := 2, err := 1, dec := fun _ => .fin 1 }, { tel := "k", t := 2, y := 3, err := 1, dec := fun _ => .fin 5 },
      { tel := "j", t := 3, y := 4, err := 1, dec := fun _ => .fin 2 }]
    columns := ["bis", "fwhm"]
    decorrVars := some ["bis", "fwhm"] }

/-- Non-vacuity: a file with a planet, two instruments, one of them with a marginalised offset, two decorrelation variables, and a prior; the terms are not zero. -/
example (drive : Drive) (v : Nat → ℝ → ℝ) (hd : ∀ t o, drive t o = some (v 1 t)) : ∃ (P : SetupFile) (vars : List String) (r : SetupPost) (p : PostState) (Ls : List RVLike) (xs : List ℝ)
    (s' : VState ℝ) (orb : Nat → Synth) (w : ℝ) (c : String → String → ℝ),
    UserParams P.params ∧ (∀ k, Key.inst .logjit k ∉ P.params.items.keys) ∧ P.hnames = none ∧ P.decorrVars = some vars ∧ P.instnames.Nodup ∧ CleanVars P.instnames vars ∧
    P.initialize 0 true = .ok r ∧ PostState.init ⟨r.st, none⟩ = .ok p ∧
    Prior.OfFile P.params (.gaussian (.orb .k 1) 5 1) ∧ r.likes.map Prod.snd = Ls.map InstLike.rv ∧ xs.length = (freeOrder P.params).length ∧ Elements (withFree P.params xs) orb ∧
    (∀ d ∈ P.data, d.tel ∈ P.instnames → ∀ m, 1 ≤ m → m ≤ P.params.numPlanets → drive d.t (orb m) = some (v m d.t)) ∧
    (∀ d ∈ P.data, d.tel ∈ P.instnames → d.err ≠ 0 ∨ valueAt P.params xs (.inst .jit ("_" ++ d.tel)) ≠ 0) ∧ VState.init (withFree P.params xs) = .ok s' ∧
    PriorValues s' [.gaussian (.orb .k 1) 5 1] [.fin w] ∧ Marginalised P.params (.inst .gamma "_j") ∧ ¬ Marginalised P.params (.inst .gamma "_k") ∧ vars.length = 2 ∧
    (decorrRows P vars c "j").map DataRow.y = [2 + 1 / 2, 4 - 1 / 2] := by
  have hP := exampleSetup_ready ["j", "k"] none true
  have hP' : SetupReady exampleDecorr true := ⟨hP.user, hP.basis, hP.nologjit, fun _ => ⟨["bis", "fwhm"], rfl, by simp [exampleDecorr]⟩⟩
  have hclean : CleanVars exampleDecorr.instnames ["bis", "fwhm"] := ⟨by decide, by decide, by
    simp only [exampleDecorr, exampleSetup]
    decide⟩
  have hnd : exampleDecorr.instnames.Nodup := by
    simp only [exampleDecorr, exampleSetup]
    decide
  obtain ⟨r, h1⟩ := (C119_exactly 0 exampleDecorr true hP' rfl).2 ⟨by simp [exampleDecorr, exampleSetup], fun i hi => by
    simp only [exampleDecorr, exampleSetup, List.mem_cons, List.not_mem_nil, or_false] at hi
    have hk : exampleDecorr.params.items.keys = exampleSetupParams.items.keys := rfl
    rw [hk, exampleSetup_keys]
    rcases hi with rfl | rfl <;> simp [exampleDecorr]⟩
  obtain ⟨a1, a2, a3, Ls, a4, a5, a6⟩ := initialize_decorr hP'.user hP'.nologjit rfl rfl hnd hclean h1
  set xs : List ℝ := (freeOrder exampleDecorr.params).map fun _ => 1 with hxs
  obtain ⟨s', b1, b2, b3, b4, b5⟩ := (withFree_user hP'.user xs).model
  have hk : Key.orb .k 1 ∈ exampleDecorr.params.items.keys := by
    change _ ∈ exampleSetupParams.items.keys
    rw [exampleSetup_keys]
    simp
  have hval : ∃ c, Prior.call s' none (.gaussian (.orb .k 1) 5 1) = .ok (.fin c) := by
    simp only [Prior.call, withFree_read hP'.user xs b1 hk, Prior.logpdf1, gaussianLogpdf]
    simp
  obtain ⟨c, hc⟩ := hval
  refine ⟨exampleDecorr, ["bis", "fwhm"], r, _, Ls, xs, s', _, c, fun _ d => if d = "bis" then 1 else 0, hP'.user, hP'.nologjit, rfl, rfl, hnd, hclean, h1, by unfold PostState.init; rw [a2.sync],
    ⟨fun k h => ?_, fun n h => ?_, fun x h => ?_⟩, a4, by simp [hxs], elements_exist _ (withFree_user hP'.user xs).good.complete, fun d _ _ m m1 m2 => ?_, fun d hd _ => ?_, b1,
    .cons hc .nil, ⟨_, rfl, rfl, rfl⟩, ?_, rfl, ?_⟩
  · simp only [Prior.keys, List.mem_singleton] at h
    subst h
    exact .inl hk
  · simp [Prior.planets] at h
  · simp [Prior.keys] at h
  · have : m = 1 := by
      have : exampleDecorr.params.numPlanets = 1 := rfl
      omega
    subst this
    exact hd _ _
  · refine .inl ?_
    simp only [exampleDecorr, List.mem_cons, List.not_mem_nil, or_false] at hd
    rcases hd with rfl | rfl | rfl <;> norm_num
  · rintro ⟨q, c1, c2, c3⟩
    cases c1
    cases c2
  · simp [decorrRows, exampleDecorr, rowTerm, mean, Fl.isFinite, Fl.toReal]
    norm_num

end Radvel
