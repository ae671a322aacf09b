import Verif.Lemmas.RVLikeFrame
import Verif.Props.RVModel

namespace Radvel
open Real ProbabilityTheory

/-! ### order of the data -/

open Classical in
theorem loglikeJitter_map (obs : List Obs) (r : Obs → Option ℝ) (v : Obs → ℝ) :
    loglikeJitter (obs.map r) (obs.map v) = if (∃ o ∈ obs, v o = 0) ∨ (∃ o ∈ obs, r o = none) then .nan
      else .fin (-0.5 * (obs.map (fun o => ((r o).getD 0) ^ 2 / v o)).sum - (obs.map (fun o => log √(2 * π * v o))).sum) := by
  unfold loglikeJitter
  have h : ((∃ x ∈ obs.map v, x = 0) ∨ none ∈ obs.map r) ↔ ((∃ o ∈ obs, v o = 0) ∨ (∃ o ∈ obs, r o = none)) := by simp
  simp only [zipWith_map_same, List.map_map, Function.comp_def]
  by_cases hc : (∃ o ∈ obs, v o = 0) ∨ (∃ o ∈ obs, r o = none)
  · rw [if_pos (h.2 hc), if_pos hc]
  · rw [if_neg (fun h' => hc (h.1 h')), if_neg hc]

theorem perm_exists {α : Type} {l l' : List α} (h : l.Perm l') (p : α → Prop) : (∃ a ∈ l, p a) ↔ (∃ a ∈ l', p a) := by
  simp [h.mem_iff]

theorem perm_sum_map {α : Type} {l l' : List α} (h : l.Perm l') (f : α → ℝ) : (l.map f).sum = (l'.map f).sum := (h.map f).sum_eq

theorem loglikeJitter_perm {obs obs' : List Obs} (h : obs.Perm obs') (r : Obs → Option ℝ) (v : Obs → ℝ) :
    loglikeJitter (obs'.map r) (obs'.map v) = loglikeJitter (obs.map r) (obs.map v) := by
  classical
  rw [loglikeJitter_map, loglikeJitter_map]
  simp only [perm_exists h, perm_sum_map h]

theorem marginalTerm_perm {obs obs' : List Obs} (h : obs.Perm obs') (v : Obs → ℝ) :
    marginalTerm (obs'.map v) = marginalTerm (obs.map v) := by
  classical
  unfold marginalTerm
  have e1 : (∃ x ∈ obs'.map v, x = 0) ↔ (∃ x ∈ obs.map v, x = 0) := (perm_exists (h.map v) _).symm
  have e2 : obs'.map v = [] ↔ obs.map v = [] := by
    simp only [List.map_eq_nil_iff]
    constructor
    · rintro rfl; exact h.eq_nil
    · rintro rfl; exact h.symm.eq_nil
  have e3 : ((obs'.map v).map (fun x => 1 / x)).sum = ((obs.map v).map (fun x => 1 / x)).sum := (perm_sum_map (h.map v) _).symm
  simp only [e1, e2, e3]

theorem weightedOffset_perm {p p' : List (Obs × Option ℝ)} (h : p.Perm p') (jit : ℝ) : weightedOffset p' jit = weightedOffset p jit := by
  classical
  unfold weightedOffset
  have e2 : p' = [] ↔ p = [] := by
    constructor
    · rintro rfl; exact h.eq_nil
    · rintro rfl; exact h.symm.eq_nil
  simp only [perm_exists h, e2, perm_sum_map h]

theorem mean_perm_list {l l' : List ℝ} (h : l.Perm l') : mean l' = mean l := by
  unfold mean; rw [h.sum_eq, h.length_eq]

theorem all_perm {α : Type} {l l' : List α} (h : l.Perm l') (p : α → Bool) : l'.all p = l.all p := by
  rw [Bool.eq_iff_iff]
  simp [h.mem_iff]

theorem decFun_perm (L : RVLike) (obs' : List Obs) (h : L.obs.Perm obs') (s : VState ℝ) : ({ L with obs := obs' } : RVLike).decFun s = L.decFun s := by
  have h1 : ({ L with obs := obs' } : RVLike).decAcc s = L.decAcc s := by
    funext f p
    unfold RVLike.decAcc RVLike.decFun1
    have hp : ∀ var, ({ L with obs := obs' } : RVLike).pars s var = L.pars s var := fun _ => rfl
    simp only [hp, all_perm h]
    have : ∀ var, mean (obs'.map (fun o => (o.dec var).toReal)) = mean (L.obs.map (fun o => (o.dec var).toReal)) := fun var => mean_perm_list (h.map _)
    simp only [this]
  unfold RVLike.decFun
  rw [h1]

/-! ### names of decorrelation parameters -/

theorem splitU_noU (l : List Char) (h : '_' ∉ l) : splitU l = [l] := by
  induction l with
  | nil => rfl
  | cons c t ih =>
    simp only [List.mem_cons, not_or] at h
    unfold splitU
    rw [if_neg (Ne.symm h.1), ih h.2]

theorem splitU_append (a b : List Char) (h : '_' ∉ a) : splitU (a ++ '_' :: b) = a :: splitU b := by
  induction a with
  | nil => simp [splitU]
  | cons c t ih =>
    simp only [List.mem_cons, not_or] at h
    rw [List.cons_append, splitU, if_neg (Ne.symm h.1), ih h.2]

theorem decorrName_toList (suffix d : String) : (decorrName suffix d).toList = 'c' :: '1' :: '_' :: (d.toList ++ suffix.toList) := by
  unfold decorrName
  simp [String.toList_append]

theorem splitU_decorrName (suffix d : String) (hd : '_' ∉ d.toList) (hs : suffix = "" ∨ ∃ t, suffix.toList = '_' :: t) :
    (splitU (decorrName suffix d).toList)[1]? = some d.toList := by
  rw [decorrName_toList, show 'c' :: '1' :: '_' :: (d.toList ++ suffix.toList) = ['c', '1'] ++ '_' :: (d.toList ++ suffix.toList) from rfl,
    splitU_append _ _ (by simp)]
  rcases hs with rfl | ⟨t, ht⟩
  · simp [splitU_noU _ hd]
  · rw [ht, splitU_append _ _ hd]; rfl

theorem filter_map_single {α β : Type} (l : List α) (f : α → β) (P : β → Bool) (a : α) (hn : l.Nodup) (ha : a ∈ l)
    (h : ∀ b ∈ l, P (f b) = true ↔ b = a) : (l.map f).filter P = [f a] := by
  induction l with
  | nil => simp at ha
  | cons b t ih =>
    rw [List.nodup_cons] at hn
    rw [List.map_cons]
    by_cases hb : b = a
    · subst hb
      rw [List.filter_cons_of_pos ((h b (by simp)).2 rfl)]
      congr 1
      rw [List.filter_eq_nil_iff]
      intro y hy
      obtain ⟨c, hc, rfl⟩ := List.mem_map.1 hy
      intro hp
      have := (h c (List.mem_cons_of_mem _ hc)).1 hp
      subst this
      exact hn.1 hc
    · rw [List.filter_cons_of_neg (fun hp => hb ((h b (by simp)).1 hp))]
      exact ih hn.2 (by simpa [Ne.symm hb] using ha) (fun c hc => h c (List.mem_cons_of_mem _ hc))

theorem decorrName_inj (suffix d d' : String) (h : decorrName suffix d = decorrName suffix d') : d = d' := by
  have := congrArg String.toList h
  rw [decorrName_toList, decorrName_toList] at this
  simp at this
  exact String.toList_injective this

theorem self_infix (suffix d : String) : d.toList <:+: (decorrName suffix d).toList := by
  rw [decorrName_toList]
  exact ⟨['c', '1', '_'], suffix.toList, by simp⟩

/-! ### witnesses -/

/-- If every variable's name has no `_` and occurs only in its own parameter's name, decorrelation subtracts each variable with its own coefficient. -/
theorem decFun_plain (L : RVLike) (s : VState ℝ)
    (ds : List String) (hds : L.decParams = ds.map (decorrName L.suffix)) (hn : ds.Nodup) (hkeys : ∀ d ∈ ds, d.toList ∈ L.decVars)
    (hu : ∀ d ∈ ds, '_' ∉ d.toList) (hsuf : ds ≠ [] → L.suffix = "" ∨ ∃ t, L.suffix.toList = '_' :: t)
    (hclean : ∀ d ∈ ds, ∀ d' ∈ ds, d.toList <:+: (decorrName L.suffix d').toList → d' = d)
    (c : String → ℝ) (hc : ∀ d ∈ ds, readPar s (.other (decorrName L.suffix d)) = .ok (c d)) :
    L.decFun s = .ok (decorrTerm L ds c) := by
  have hstep : ∀ d ∈ ds, ∀ f, L.decAcc s f (decorrName L.suffix d) = .ok (fun o => f o +
      if L.obs.all (fun o => (o.dec d.toList).isFinite) then
        c d * ((o.dec d.toList).toReal - mean (L.obs.map (fun o => (o.dec d.toList).toReal))) else 0) := by
    intro d hd f
    unfold RVLike.decAcc RVLike.decFun1
    rw [splitU_decorrName L.suffix d (hu d hd) (hsuf (List.ne_nil_of_mem hd))]
    have hpars : L.pars s d.toList = .ok [c d, 0] := by
      unfold RVLike.pars
      rw [hds, filter_map_single ds (decorrName L.suffix) _ d hn hd (by
        intro b hb
        rw [decide_eq_true_iff]
        constructor
        · exact hclean d hd b hb
        · rintro rfl; exact self_infix _ _)]
      simp [readPars, hc d hd]
    simp only [hpars, if_neg (not_not_intro (hkeys d hd))]
    by_cases hf : L.obs.all (fun o => (o.dec d.toList).isFinite) = true
    · simp only [hf, if_true]
      congr 1; funext o; simp [poly1d]
    · simp only [hf, if_false, Bool.false_eq_true]
  have hfold : ∀ (l : List String), (∀ d ∈ l, d ∈ ds) → ∀ f, (l.map (decorrName L.suffix)).foldlM (L.decAcc s) f = .ok (fun o => f o +
      ((l.filter (fun d => L.obs.all (fun o => (o.dec d.toList).isFinite))).map (fun d =>
        c d * ((o.dec d.toList).toReal - mean (L.obs.map (fun o => (o.dec d.toList).toReal))))).sum) := by
    intro l
    induction l with
    | nil => intro _ f; simp [pure, Except.pure]
    | cons d t ih =>
      intro hsub f
      rw [List.map_cons, List.foldlM_cons, hstep d (hsub d (by simp))]
      simp only [bind, Except.bind]
      rw [ih (fun d hd => hsub d (List.mem_cons_of_mem _ hd))]
      congr 1
      funext o
      by_cases hf : L.obs.all (fun o => (o.dec d.toList).isFinite) = true
      · rw [List.filter_cons_of_pos (p := fun d : String => L.obs.all (fun o => (o.dec d.toList).isFinite)) hf]
        simp only [hf, if_true, List.map_cons, List.sum_cons]
        ring
      · rw [List.filter_cons_of_neg (p := fun d : String => L.obs.all (fun o => (o.dec d.toList).isFinite)) hf]
        simp only [hf, if_false, Bool.false_eq_true]
        ring
  unfold RVLike.decFun
  rw [hds, hfold ds (fun _ h => h)]
  simp only [zero_add]
  rfl


/-- Any assignment of rows to keys can be written. -/
theorem Likes.assign {s : VState ℝ} {Ls : List RVLike} (h : Likes s Ls) (row : Key → Row ℝ) :
    ∃ s', Likes s' Ls ∧ s'.params = s.params ∧ s'.indices = s.indices ∧
      ∀ k i, (k ∈ s.params.items.keys ∨ k = .dvdt ∨ k = .curv) → s.indices.get? k = some i → s'.rows[i]? = some (row k) := by
  have hn := h.built.1.namesOk
  refine ⟨_, .write s Ls (s.names.map row) h (by simp [hn.len]), rfl, rfl, ?_⟩
  intro k i hk hi
  simp [hn.fwd k i hk hi]

/-- Constructing a likelihood never fails in a reachable state. -/
theorem RVLike.new_ok {s : VState ℝ} (hs : Built s) (obs : List Obs) (suffix : String) (vars : List String) (keys : List (List Char)) :
    ∃ s' L, RVLike.new s obs suffix vars keys = .ok (s', L) ∧ s'.params.numPlanets = s.params.numPlanets := by
  have hk : ∀ k ∈ [Key.inst .gamma suffix, .inst .jit suffix] ++ (vars.map (decorrName suffix)).map Key.other, ∀ p n, k ≠ .orb p n := by
    intro k hk p n
    simp only [List.mem_append, List.mem_cons, List.mem_map, List.not_mem_nil, or_false] at hk
    rcases hk with (rfl | rfl) | ⟨a, _, rfl⟩ <;> simp
  obtain ⟨s2, e1, e2, _, _, e5, e6, _⟩ := likelihood_fresh hs.inv.1 [.inst .gamma suffix, .inst .jit suffix] ((vars.map (decorrName suffix)).map Key.other) hk
    (by rw [hs.inv.2]; simp)
  have hidx : ∀ k ∈ s2.params.items.keys, ∃ i, s2.indices.get? k = some i := by
    intro k hk'
    cases hi : s2.indices.get? k with
    | some i => exact ⟨i, rfl⟩
    | none =>
      have : k ∈ unindexed s2 := by simp [unindexed, hk', Dict.has, hi]
      rw [e2.ui] at this; cases this
  obtain ⟨g, hg⟩ := hidx _ (e5 (.inst .gamma suffix) (by simp))
  obtain ⟨j, hj⟩ := hidx _ (e5 (.inst .jit suffix) (by simp))
  exact ⟨s2, _, by simp only [RVLike.new, e1, hg, hj]; rfl, e6⟩

/-- A model without planets: `Parameters(0)`. -/
theorem flatStart : ∃ s : VState ℝ, Built s ∧ s.params.numPlanets = 0 := by
  have h : UserParams (Params.init (0 : ℝ) 0 .perTpEWK none) := .new _ _ _ _ (by decide)
  obtain ⟨s, h1, _, _, h4, _⟩ := h.model
  exact ⟨s, .model _ s h h1, by rw [h4]; rfl⟩

/-- One likelihood on a model without planets, with any rows. -/
theorem flatLike (obs : List Obs) (suffix : String) (vars : List String) (keys : List (List Char)) (row : Key → Row ℝ) :
    ∃ s L, Likes s [L] ∧ s.params.numPlanets = 0 ∧ L.suffix = suffix ∧ L.obs = obs ∧ L.decParams = vars.map (decorrName suffix) ∧ L.decVars = keys ∧
      ∀ k i, (k ∈ s.params.items.keys ∨ k = .dvdt ∨ k = .curv) → s.indices.get? k = some i → s.rows[i]? = some (row k) := by
  obtain ⟨s0, h0, hN⟩ := flatStart
  obtain ⟨s1, L, h1, h2⟩ := RVLike.new_ok h0 obs suffix vars keys
  obtain ⟨_, _, a3, a4, a5, a6, _⟩ := RVLike.new_built _ _ _ _ _ _ _ h0 h1
  have hl : Likes s1 [L] := .like s0 s1 [] L (.start _ h0) obs suffix vars keys h1
  obtain ⟨s', b1, b2, b3, b4⟩ := hl.assign row
  refine ⟨s', L, b1, by rw [b2, h2, hN], a3, a4, a5, a6, ?_⟩
  rw [b2, b3]
  exact b4

/-- Without planets the model is the trend. -/
theorem flat_model (drive : Drive) (tb t : ℝ) (s : VState ℝ) (hs : Built s) (hN : s.params.numPlanets = 0) (row : Key → Row ℝ)
    (hr : ∀ k i, (k ∈ s.params.items.keys ∨ k = .dvdt ∨ k = .curv) → s.indices.get? k = some i → s.rows[i]? = some (row k)) :
    modelCall drive tb s none t = .ok (some ((row .dvdt).value * (t - tb) + (row .curv).value * (t - tb) ^ 2)) := by
  obtain ⟨u, d, c, _, h2, h3, h4, _⟩ := C25_reachable s hs drive tb t
  have hd := hr .dvdt _ (.inr (.inl rfl)) hs.inv.1.dvdtIdx
  have hc := hr .curv _ (.inr (.inr rfl)) hs.inv.1.curvIdx
  rw [h2] at hd; rw [h3] at hc
  cases hd; cases hc
  rw [h4 (fun _ => 0) (by intro m hm; unfold IsPlanet at hm; omega), hN]
  simp

end Radvel
