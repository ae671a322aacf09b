import Verif.Lemmas.ModelComp
import Mathlib.Tactic.NormNum
import Verif.Lemmas.Like

/-! # C70: the models that are compared -/

namespace Radvel

variable {α : Type}

theorem modelComp_nil (c : CompConsts α) (opt : Dict Key (Row α) → List Nat → Nat → α) (p : CPost α) (mc : List (CompEntry α)) :
    modelComp c opt [] p mc = (leafComp opt p).map fun r => (mc ++ [r.1], r.2) := by
  rw [modelComp]
  simp only [if_true]
  rcases leafComp opt p with e | r <;> rfl

theorem modelComp_e (c : CompConsts α) (opt : Dict Key (Row α) → List Nat → Nat → α) : modelComp c opt [.e] = eStage c (modelComp c opt []) := by
  funext p mc; rw [modelComp]; simp [without]

theorem modelComp_nplanets (c : CompConsts α) (opt : Dict Key (Row α) → List Nat → Nat → α) : modelComp c opt [.nplanets] = planetStage c (modelComp c opt []) := by
  funext p mc; rw [modelComp]; simp [without]

theorem modelComp_trend (c : CompConsts α) (opt : Dict Key (Row α) → List Nat → Nat → α) : modelComp c opt [.trend] = trendStage c (modelComp c opt []) := by
  funext p mc; rw [modelComp]; simp [without]

theorem modelComp_jit (c : CompConsts α) (opt : Dict Key (Row α) → List Nat → Nat → α) : modelComp c opt [.jit] = jitStage c (modelComp c opt []) := by
  funext p mc; rw [modelComp]; simp [without]

theorem modelComp_gp (c : CompConsts α) (opt : Dict Key (Row α) → List Nat → Nat → α) : modelComp c opt [.gp] = gpStage c (modelComp c opt []) := by
  funext p mc; rw [modelComp]; simp [without]

theorem modelComp_planets_e (c : CompConsts α) (opt : Dict Key (Row α) → List Nat → Nat → α) : modelComp c opt [.nplanets, .e] = planetStage c (modelComp c opt [.e]) := by
  funext p mc; rw [modelComp]; simp [without]

theorem eparams_nodup {b : BasisName} {es : List PName} (h : b.eparams = .ok es) : es.Nodup := by
  cases b <;> (try cases h) <;> simp

theorem allparams_nodup {b : BasisName} {es cs : List PName} (h : b.eparams = .ok es) (h' : b.circparams = .ok cs) : (es ++ cs).Nodup := by
  cases b <;> (try cases h) <;> (try cases h') <;> simp

theorem set_set (v : Dict Key (Row α)) (k : Key) (r r' : Row α) : (v.set k r).set k r' = v.set k r' := by
  induction v with
  | nil => simp [Dict.set]
  | cons a v ih =>
    obtain ⟨k', x⟩ := a
    by_cases ha : k' = k
    · simp [Dict.set, ha]
    · simp [Dict.set, ha, ih]

theorem circOne_edits (c : CompConsts α) (k : Key) : Edits (circOne c) (fun _ r => { r with value := c.zero, vary := false }) k := by
  intro v r h
  unfold circOne putValue
  rw [h]
  simp only [bind, Except.bind, clearFlag]
  rw [Dict.get?_set_self]
  simp only
  rw [set_set]

/-- The row of a parameter of a removed planet. -/
def removedRow (zero negInf : α) (k : Key) (r : Row α) : Row α :=
  { r with value := (match k with
             | .orb w _ => if w = .k then zero else if w = .logk then negInf else r.value
             | _ => r.value)
           vary := false }

theorem removeOne_edits (c : CompConsts α) (w : PName) (n : Nat) : Edits (removeOne c) (removedRow c.zero c.negInf) (.orb w n) := by
  intro v r h
  unfold removeOne
  have hk : ((Key.orb w n).render.head? = some 'k') ↔ w = .k := by cases w <;> simp [Key.render, PName.chars]
  have hl : ("logk".toList.isPrefixOf (Key.orb w n).render = true) ↔ w = .logk := by
    cases w <;> simp [Key.render, PName.chars, List.isPrefixOf]
  by_cases h1 : w = .k
  · subst h1
    rw [if_pos (hk.2 rfl)]
    unfold putValue
    rw [h]
    simp only [bind, Except.bind]
    rw [if_neg (by rw [hl]; simp)]
    simp only [clearFlag]
    rw [Dict.get?_set_self]
    simp only [removedRow, if_true]
    rw [set_set]
  · rw [if_neg (by rw [hk]; exact h1)]
    simp only [bind, Except.bind]
    by_cases h2 : w = .logk
    · subst h2
      rw [if_pos (hl.2 rfl)]
      unfold putValue
      rw [h]
      simp only [clearFlag]
      rw [Dict.get?_set_self]
      simp only [removedRow, if_neg h1, if_true]
      rw [set_set]
    · rw [if_neg (by rw [hl]; exact h2)]
      simp only [clearFlag]
      rw [h]
      simp only [removedRow, if_neg h1, if_neg h2]

theorem mem_groupKeys (ws : List PName) (g : List Nat) (w : PName) (n : Nat) : Key.orb w n ∈ g.flatMap (planetKeys ws) ↔ w ∈ ws ∧ n ∈ g.toFinset := by
  simp only [List.mem_flatMap, planetKeys, List.mem_map, List.mem_toFinset]
  constructor
  · rintro ⟨m, hm, w', hw, h⟩
    cases h
    exact ⟨hw, hm⟩
  · rintro ⟨hw, hn⟩
    exact ⟨n, hn, w, hw, rfl⟩

theorem not_mem_groupKeys (ws : List PName) (g : List Nat) (k : Key) (hk : ∀ w n, k ≠ .orb w n) : k ∉ g.flatMap (planetKeys ws) := by
  intro h
  simp only [List.mem_flatMap, planetKeys, List.mem_map] at h
  obtain ⟨n, _, w, _, rfl⟩ := h
  exact hk w n rfl

theorem withCircular_eq (zero : α) (ws : List PName) (g : List Nat) (p : CPost α) :
    ({ p with vec := mapRows (fun _ r => { r with value := zero, vary := false }) (g.flatMap (planetKeys ws)) p.vec } : CPost α) = circularModel zero ws g.toFinset p := by
  unfold circularModel mapRows
  congr 1
  apply List.map_congr_left
  rintro ⟨k, r⟩ _
  cases k with
  | orb w n =>
    by_cases h : w ∈ ws ∧ n ∈ g.toFinset
    · simp only [if_pos h, if_pos ((mem_groupKeys ws g w n).2 h)]
    · simp only [if_neg h, if_neg (fun h' => h ((mem_groupKeys ws g w n).1 h'))]
  | dvdt => simp only [if_neg (not_mem_groupKeys ws g .dvdt (by simp))]
  | curv => simp only [if_neg (not_mem_groupKeys ws g .curv (by simp))]
  | inst i s => simp only [if_neg (not_mem_groupKeys ws g (.inst i s) (by simp))]
  | other s => simp only [if_neg (not_mem_groupKeys ws g (.other s) (by simp))]

theorem without_eq (zero negInf : α) (ws : List PName) (g : List Nat) (p : CPost α) :
    ({ p with vec := mapRows (removedRow zero negInf) (g.flatMap (planetKeys ws)) p.vec } : CPost α) = withoutPlanets zero negInf ws g.toFinset p := by
  unfold withoutPlanets mapRows
  congr 1
  apply List.map_congr_left
  rintro ⟨k, r⟩ _
  cases k with
  | orb w n =>
    by_cases h : w ∈ ws ∧ n ∈ g.toFinset
    · simp only [removedRow, if_pos h, if_pos ((mem_groupKeys ws g w n).2 h)]
    · simp only [if_neg h, if_neg (fun h' => h ((mem_groupKeys ws g w n).1 h'))]
  | dvdt => simp only [if_neg (not_mem_groupKeys ws g .dvdt (by simp))]
  | curv => simp only [if_neg (not_mem_groupKeys ws g .curv (by simp))]
  | inst i s => simp only [if_neg (not_mem_groupKeys ws g (.inst i s) (by simp))]
  | other s => simp only [if_neg (not_mem_groupKeys ws g (.other s) (by simp))]

theorem circular_empty (zero : α) (ws : List PName) (p : CPost α) : circularModel zero ws ∅ p = p := by
  rw [show (∅ : Finset Nat) = ([] : List Nat).toFinset from rfl, ← withCircular_eq]
  simp [mapRows]

theorem without_empty (zero negInf : α) (ws : List PName) (p : CPost α) : withoutPlanets zero negInf ws ∅ p = p := by
  rw [show (∅ : Finset Nat) = ([] : List Nat).toFinset from rfl, ← without_eq]
  simp [mapRows]

/-- The subsets of the candidates in the order in which they are tried; the empty set (the full model) is the last. -/
def subsetOrder (ws : List PName) (p : CPost α) : List (Finset Nat) := (((planetGroups p.nplanets).filter (groupFree ws p)) ++ [[]]).map List.toFinset

theorem subsetOrder_last (ws : List PName) (p : CPost α) : (subsetOrder ws p).getLast? = some ∅ := by simp [subsetOrder]

theorem subsetOrder_length (ws : List PName) (p : CPost α) : (subsetOrder ws p).length = 2 ^ (candidates ws p).card := by
  obtain ⟨h1, h2⟩ := groups_subsets ws p
  rw [← Finset.card_powerset]
  unfold subsetOrder
  rw [← List.toFinset_card_of_nodup h1]
  congr 1
  ext S
  rw [List.mem_toFinset, Finset.mem_powerset]
  exact h2 S

theorem eStage_eq (c : CompConsts α) (rec : CompRec α) (p : CPost α) (es : List PName) (hes : p.basis.eparams = .ok es) (hp : HasRows es p) (mc : List (CompEntry α)) :
    eStage c rec p mc = (runAll rec ((subsetOrder es p).map fun S => (circularModel c.zero es S p).relist) mc).map fun l => (l, p) := by
  unfold eStage
  rw [hes]
  show groupStage (circOne c) es rec p mc = _
  rw [groupStage_eq (eparams_nodup hes) hp (fun n w _ => circOne_edits c _) rec mc]
  congr 2
  unfold subsetOrder
  rw [List.map_append, List.map_append, List.map_map, List.map_map]
  congr 1
  · apply List.map_congr_left
    intro g _
    rw [withCircular_eq]; rfl
  · simp [circular_empty]

theorem planetStage_eq (c : CompConsts α) (rec : CompRec α) (p : CPost α) (es cs : List PName) (hes : p.basis.eparams = .ok es) (hcs : p.basis.circparams = .ok cs) (hp : HasRows (es ++ cs) p)
    (mc : List (CompEntry α)) :
    planetStage c rec p mc = (runAll rec ((subsetOrder (es ++ cs) p).map fun S => (withoutPlanets c.zero c.negInf (es ++ cs) S p).relist) mc).map fun l => (l, p) := by
  unfold planetStage
  rw [hes, hcs]
  show groupStage (removeOne c) (es ++ cs) rec p mc = _
  rw [groupStage_eq (allparams_nodup hes hcs) hp (fun n w _ => removeOne_edits c w n) rec mc]
  congr 2
  unfold subsetOrder
  rw [List.map_append, List.map_append, List.map_map, List.map_map]
  congr 1
  · apply List.map_congr_left
    intro g _
    rw [without_eq]; rfl
  · simp [without_empty]

/-- C70, eccentricities (valid basis names other than 'per tc tp e w k', see `C70_basis_violated`): exactly one model is fitted for every set `S` of planets with a free eccentricity parameter, namely the one
in which the planets in `S` have circular orbits; the full model comes last; there are 2 to the number of candidates of them. -/
theorem C70_e (c : CompConsts α) (opt : Dict Key (Row α) → List Nat → Nat → α) (p : CPost α) (es : List PName) (hes : p.basis.eparams = .ok es) (hp : HasRows es p) (mc : List (CompEntry α)) :
    ∃ L : List (Finset Nat), L.Nodup ∧ (∀ S, S ∈ L ↔ S ⊆ candidates es p) ∧ L.length = 2 ^ (candidates es p).card ∧ L.getLast? = some ∅ ∧
      modelComp c opt [.e] p mc = (L.mapM fun S => leafComp opt (circularModel c.zero es S p).relist).map fun r => (mc ++ r.map Prod.fst, p) := by
  obtain ⟨h1, h2⟩ := groups_subsets es p
  refine ⟨subsetOrder es p, h1, h2, subsetOrder_length es p, subsetOrder_last es p, ?_⟩
  rw [modelComp_e, eStage_eq c _ p es hes hp mc, runAll_leaf, mapM_map]
  rcases (subsetOrder es p).mapM _ with e | r <;> rfl

/-- C70, planets: exactly one model is fitted for every set `S` of planets with a free parameter, namely the one without the planets in `S`; the full model comes last. -/
theorem C70_nplanets (c : CompConsts α) (opt : Dict Key (Row α) → List Nat → Nat → α) (p : CPost α) (es cs : List PName) (hes : p.basis.eparams = .ok es) (hcs : p.basis.circparams = .ok cs)
    (hp : HasRows (es ++ cs) p) (mc : List (CompEntry α)) :
    ∃ L : List (Finset Nat), L.Nodup ∧ (∀ S, S ∈ L ↔ S ⊆ candidates (es ++ cs) p) ∧ L.length = 2 ^ (candidates (es ++ cs) p).card ∧ L.getLast? = some ∅ ∧
      modelComp c opt [.nplanets] p mc = (L.mapM fun S => leafComp opt (withoutPlanets c.zero c.negInf (es ++ cs) S p).relist).map fun r => (mc ++ r.map Prod.fst, p) := by
  obtain ⟨h1, h2⟩ := groups_subsets (es ++ cs) p
  refine ⟨subsetOrder (es ++ cs) p, h1, h2, subsetOrder_length _ p, subsetOrder_last _ p, ?_⟩
  rw [modelComp_nplanets, planetStage_eq c _ p es cs hes hcs hp mc, runAll_leaf, mapM_map]
  rcases (subsetOrder (es ++ cs) p).mapM _ with e | r <;> rfl

/-- The nested trend models: for each free trend parameter in turn, first the model in which it is free (and its starting value is zero), then the models in which it is fixed at zero. -/
def nestedTrend (zero : α) : List Key → CPost α → List (CPost α)
  | [], p => [p]
  | k :: ks, p =>
    { p with vec := p.vec.map fun kr => if kr.1 = k then (kr.1, { kr.2 with value := zero }) else kr } ::
    nestedTrend zero ks { p with vec := p.vec.map fun kr => if kr.1 = k then (kr.1, { kr.2 with value := zero, vary := false }) else kr }

theorem set_eq_map (v : Dict Key (Row α)) (k : Key) (r : Row α) (f : Row α → Row α) (hn : v.keys.Nodup) (h : v.get? k = some r) :
    v.set k (f r) = v.map fun kr => if kr.1 = k then (kr.1, f kr.2) else kr := by
  induction v with
  | nil => cases h
  | cons a v ih =>
    obtain ⟨k', r'⟩ := a
    have hn' : k' ∉ Dict.keys v ∧ (Dict.keys v).Nodup := by
      have : Dict.keys ((k', r') :: v) = k' :: Dict.keys v := rfl
      rw [this, List.nodup_cons] at hn; exact hn
    rw [Dict.get?_cons] at h
    by_cases hk : k' = k
    · subst hk
      simp at h; subst h
      simp only [Dict.set, if_true, List.map_cons]
      congr 1
      symm
      refine (List.map_congr_left (g := id) ?_).trans (List.map_id v)
      intro x hx
      show _ = x
      rw [if_neg]
      rintro h0
      exact hn'.1 (h0 ▸ List.mem_map.2 ⟨x, hx, rfl⟩)
    · simp only [if_neg hk] at h
      simp only [Dict.set, if_neg hk, List.map_cons]
      rw [ih hn'.2 h]

theorem keys_map_same (v : Dict Key (Row α)) (f : Key × Row α → Key × Row α) (hf : ∀ x, (f x).1 = x.1) : Dict.keys (v.map f) = v.keys := by
  simp [Dict.keys, Function.comp_def, hf]

theorem ite_fst (k : Key) (x : Key × Row α) (r : Row α) : (if x.1 = k then (x.1, r) else x).1 = x.1 := by split <;> rfl

theorem runAll_cons (rec : CompRec α) (q : CPost α) (ps : List (CPost α)) (mc : List (CompEntry α)) : runAll rec (q :: ps) mc = (rec q mc).map Prod.fst >>= runAll rec ps := by
  unfold runAll; rw [List.foldlM_cons]

theorem trend_fold (c : CompConsts α) (rec : CompRec α) : ∀ (ks : List Key) (p : CPost α) (mc : List (CompEntry α)), p.vec.keys.Nodup → ks.Nodup → (∀ k ∈ ks, k ∈ p.vec.keys) →
    (ks.foldlM (trendStep c rec) (p, mc) >>= fun acc => (rec acc.1.relist acc.2).map Prod.fst) =
      runAll rec ((nestedTrend c.zero (ks.filter fun k => flagOf p.vec k) p).map CPost.relist) mc := by
  intro ks
  induction ks with
  | nil =>
    intro p mc _ _ _
    show (rec p.relist mc).map Prod.fst = _
    simp only [List.filter_nil, nestedTrend, List.map_cons, List.map_nil, runAll_cons]
    rcases rec p.relist mc with e | r <;> rfl
  | cons k ks ih =>
    intro p mc hn hk hin
    rw [List.nodup_cons] at hk
    rw [List.foldlM_cons]
    obtain ⟨r, hr⟩ := p.vec.exists_get?_of_mem (hin k (by simp))
    have hfl : flagOf p.vec k = r.vary := by simp [flagOf, hr]
    have hstep : trendStep c rec (p, mc) k = if r.vary then
        ((rec ({ p with vec := p.vec.map fun kr => if kr.1 = k then (kr.1, { kr.2 with value := c.zero }) else kr } : CPost α).relist mc).map fun x =>
          (({ p with vec := p.vec.map fun kr => if kr.1 = k then (kr.1, { kr.2 with value := c.zero, vary := false }) else kr } : CPost α), x.1))
        else .ok (p, mc) := by
      unfold trendStep
      simp only [getFlag_eq p.vec k (hin k (by simp)), hfl, bind, Except.bind]
      by_cases hv : r.vary
      · rw [if_pos hv, if_pos hv]
        simp only [putValue, hr]
        rw [set_eq_map p.vec k r (fun r => { r with value := c.zero }) hn hr]
        rcases hrec : rec _ mc with e | x
        · rfl
        · simp only [clearFlag]
          rw [← set_eq_map p.vec k r (fun r => { r with value := c.zero }) hn hr, Dict.get?_set_self]
          simp only [set_set]
          rw [set_eq_map p.vec k r (fun r => { r with value := c.zero, vary := false }) hn hr]
          rfl
      · rw [if_neg hv, if_neg hv]; rfl
    rw [hstep]
    by_cases hv : r.vary
    · rw [if_pos hv, List.filter_cons_of_pos (by rw [hfl]; exact hv)]
      have hkeys : Dict.keys (p.vec.map fun kr => if kr.1 = k then (kr.1, { kr.2 with value := c.zero, vary := false }) else kr) = p.vec.keys := keys_map_same _ _ fun x => ite_fst k x _
      have hflags : ks.filter (fun k' => flagOf (p.vec.map fun kr => if kr.1 = k then (kr.1, { kr.2 with value := c.zero, vary := false }) else kr) k') = ks.filter fun k' => flagOf p.vec k' := by
        apply List.filter_congr
        intro k' hk'
        have hne : k ≠ k' := fun h => hk.1 (h ▸ hk')
        unfold flagOf
        rw [← set_eq_map p.vec k r (fun r => { r with value := c.zero, vary := false }) hn hr, Dict.get?_set_ne _ _ hne]
      simp only [nestedTrend, List.map_cons, runAll_cons]
      rcases rec _ mc with e | x
      · rfl
      · show (ks.foldlM (trendStep c rec) (_, x.1) >>= _) = runAll rec _ x.1
        rw [ih _ x.1 (by rw [hkeys]; exact hn) hk.2 (fun k' h' => by rw [hkeys]; exact hin k' (by simp [h'])), hflags]
    · rw [if_neg hv, List.filter_cons_of_neg (by rw [hfl]; exact hv)]
      exact ih p mc hn hk.2 fun k' h' => hin k' (by simp [h'])

/-- C70, trends: the nested models are fitted in order: every free trend parameter is first free and then fixed at zero, first the curvature and then the slope; the last model has no free trend parameter. -/
theorem C70_trend (c : CompConsts α) (opt : Dict Key (Row α) → List Nat → Nat → α) (p : CPost α) (hn : p.vec.keys.Nodup) (hcurv : Key.curv ∈ p.vec.keys) (hdvdt : Key.dvdt ∈ p.vec.keys)
    (mc : List (CompEntry α)) :
    modelComp c opt [.trend] p mc = (((nestedTrend c.zero ([Key.curv, Key.dvdt].filter fun k => ((p.vec.get? k).map Row.vary).getD false) p).map CPost.relist).mapM (leafComp opt)).map
      fun r => (mc ++ r.map Prod.fst, p) := by
  rw [modelComp_trend]
  have := trend_fold c (modelComp c opt []) [.curv, .dvdt] p mc hn (by simp) (by intro k hk; simp at hk; rcases hk with rfl | rfl <;> assumption)
  rw [runAll_leaf] at this
  unfold trendStage
  rcases hf : [Key.curv, Key.dvdt].foldlM (trendStep c (modelComp c opt [])) (p, mc) with e | acc
  · rw [hf] at this
    change Except.error e = _ at this
    show Except.error e = _
    rcases hm : ((nestedTrend c.zero ([Key.curv, Key.dvdt].filter fun k => flagOf p.vec k) p).map CPost.relist).mapM (leafComp opt) with e' | r
    · rw [hm] at this; cases this
      show _ = Except.map _ (List.mapM (leafComp opt) ((nestedTrend c.zero ([Key.curv, Key.dvdt].filter fun k => flagOf p.vec k) p).map CPost.relist))
      rw [hm]; rfl
    · rw [hm] at this; cases this
  · rw [hf] at this
    show (modelComp c opt [] acc.1.relist acc.2 >>= _) = Except.map _ (List.mapM (leafComp opt) ((nestedTrend c.zero ([Key.curv, Key.dvdt].filter fun k => flagOf p.vec k) p).map CPost.relist))
    change (modelComp c opt [] acc.1.relist acc.2).map Prod.fst = _ at this
    rcases hm : ((nestedTrend c.zero ([Key.curv, Key.dvdt].filter fun k => flagOf p.vec k) p).map CPost.relist).mapM (leafComp opt) with e' | r
    · rw [hm] at this
      rcases hr : modelComp c opt [] acc.1.relist acc.2 with e | x
      · rw [hr] at this; cases this; rfl
      · rw [hr] at this; cases this
    · rw [hm] at this
      rcases hr : modelComp c opt [] acc.1.relist acc.2 with e | x
      · rw [hr] at this; cases this
      · rw [hr] at this
        have h1 : x.1 = mc ++ r.map Prod.fst := by
          change Except.ok x.1 = Except.ok _ at this
          exact Except.ok.inj this
        show Except.ok (x.1, p) = Except.ok _
        rw [h1]

/-- The model with all free jitters fixed at the value `tiny`. -/
def jitterless (tiny : α) (p : CPost α) : CPost α :=
  { p with vec := p.vec.map fun kr => if "jit".toList.isPrefixOf kr.1.render && kr.2.vary then (kr.1, { kr.2 with value := tiny, vary := false }) else kr }

/-- C70, jitters: two models are fitted if a jitter is free, the one with fixed negligible jitters and the full one; otherwise only the full one. -/
theorem C70_jit (c : CompConsts α) (opt : Dict Key (Row α) → List Nat → Nat → α) (p : CPost α) (mc : List (CompEntry α)) :
    modelComp c opt [.jit] p mc = (((if p.vec.any (fun kr => "jit".toList.isPrefixOf kr.1.render && kr.2.vary) then [jitterless c.tiny p, p] else [p]).map CPost.relist).mapM (leafComp opt)).map
      fun r => (mc ++ r.map Prod.fst, p) := by
  rw [modelComp_jit]
  unfold jitStage
  have hany : p.vec.any isFreeJit = p.vec.any (fun kr => "jit".toList.isPrefixOf kr.1.render && kr.2.vary) := rfl
  by_cases h : p.vec.any isFreeJit
  · simp only [h, if_true, ← hany]
    have hj : ({ p with vec := p.vec.map fun kr => if isFreeJit kr then (kr.1, { kr.2 with value := c.tiny, vary := false }) else kr } : CPost α) = jitterless c.tiny p := rfl
    rw [hj]
    simp only [List.map_cons, List.map_nil, List.mapM_cons, List.mapM_nil, modelComp_nil]
    rcases leafComp opt (jitterless c.tiny p).relist with e | r
    · rfl
    · show (Except.map _ (leafComp opt p.relist) >>= _) = _
      rcases leafComp opt p.relist with e | r'
      · rfl
      · show Except.ok (mc ++ [r.1] ++ [r'.1], p) = Except.ok (mc ++ [r.1, r'.1], p)
        simp
  · rw [if_neg h]
    simp only [← hany, if_neg h, List.map_cons, List.map_nil, List.mapM_cons, List.mapM_nil, modelComp_nil]
    show (Except.map _ (leafComp opt p.relist) >>= _) = _
    rcases leafComp opt p.relist with e | r' <;> rfl

theorem relist_fresh (p : CPost α) : FreshCaches p.relist := ⟨rfl, rfl⟩

/-- C70, what is fitted: the entry of a model has the model's flags; parameters that are fixed in the model keep their values; and both parameter counts are the number of free parameters of the model. -/
theorem C70_entry (opt : Dict Key (Row α) → List Nat → Nat → α) (q : CPost α) (hq : FreshCaches q) (en : CompEntry α) (q' : CPost α) (h : leafComp opt q = .ok (en, q')) :
    en.vec.length = q.vec.length ∧
    (∀ (i : Nat) k r, q.vec[i]? = some (k, r) → ∃ r', en.vec[i]? = some (k, r') ∧ r'.vary = r.vary ∧ (r.vary = false → r' = r)) ∧
    en.nfree = (q.vec.filter fun kr => kr.2.vary).length ∧ en.nlike = (q.vec.filter fun kr => kr.2.vary).length := by
  have hcount : (freeRows (q.vec.map Prod.snd)).length = (q.vec.filter fun kr => kr.2.vary).length := by
    rw [length_freeRows, List.filter_map, List.length_map]
    rfl
  have hfr : fitRows q = freeRows (q.vec.map Prod.snd) := by
    unfold fitRows cacheCount
    rw [hq.1, hq.2]
    simp
  unfold leafComp at h
  simp only [bind, Except.bind] at h
  rcases hl : freeLabels (fitPost opt q).basis (fitPost opt q).vec with e | l
  · rw [hl] at h; cases h
  · rw [hl] at h
    cases h
    refine ⟨by simp [fitPost], ?_, ?_, ?_⟩
    · intro i k r hi
      refine ⟨if i ∈ fitRows q then { r with value := opt q.vec (fitRows q) i } else r, ?_, ?_, ?_⟩
      · simp [fitPost, List.getElem?_zipIdx, hi]
      · split <;> rfl
      · intro hv
        rw [if_neg]
        rw [hfr, mem_freeRows]
        rintro ⟨r', h1, h2⟩
        rw [List.getElem?_map, hi] at h1
        cases h1
        rw [hv] at h2; cases h2
    · show cacheCount _ (some (q.postCache.getD _)) = _
      rw [hq.2]; exact hcount
    · show cacheCount _ (some (fitRows q)) = _
      rw [hfr]; exact hcount

/-- C70 is false for one of the valid basis names, 'per tc tp e w k': no comparison of any kind can be made with it. -/
theorem C70_basis_violated (c : CompConsts α) (opt : Dict Key (Row α) → List Nat → Nat → α) (p : CPost α) (hb : p.basis = .perTcTpEWK) (mc : List (CompEntry α)) :
    modelComp c opt [.e] p mc = .error .keyError ∧ modelComp c opt [.nplanets] p mc = .error .keyError ∧ modelComp c opt [] p mc = .error .keyError := by
  refine ⟨?_, ?_, ?_⟩
  · rw [modelComp_e]; unfold eStage; rw [hb]; rfl
  · rw [modelComp_nplanets]; unfold planetStage; rw [hb]; rfl
  · rw [modelComp_nil]
    unfold leafComp freeLabels
    show Except.map _ (BasisName.eparams p.basis >>= _ >>= _) = _
    rw [hb]; rfl

/-! ## C101: mixed comparisons -/

theorem HasRows.mono {ws ws' : List PName} {p : CPost α} (h : HasRows ws p) (hs : ∀ w ∈ ws', w ∈ ws) : HasRows ws' p := ⟨h.nodup, fun n h1 h2 w hw => h.rows n h1 h2 w (hs w hw)⟩

theorem withoutPlanets_keys (zero negInf : α) (ws : List PName) (S : Finset Nat) (p : CPost α) : (withoutPlanets zero negInf ws S p).vec.keys = p.vec.keys := by
  unfold withoutPlanets
  apply keys_map_same
  rintro ⟨k, r⟩
  cases k <;> simp only
  split <;> rfl

theorem runAll_flatMap (rec leaf : CompRec α) (V : CPost α → List (CPost α)) : ∀ (ps : List (CPost α)) (mc : List (CompEntry α)),
    (∀ q ∈ ps, ∀ mc, rec q mc = (runAll leaf (V q) mc).map fun l => (l, q)) → runAll rec ps mc = runAll leaf (ps.flatMap V) mc := by
  intro ps
  induction ps with
  | nil => intro mc _; rfl
  | cons q ps ih =>
    intro mc h
    rw [runAll_cons, h q (by simp) mc, List.flatMap_cons, runAll_append]
    rcases runAll leaf (V q) mc with e | l
    · rfl
    · exact ih l fun q' h' => h q' (by simp [h'])

/-- C101: the mixed comparison of planets and eccentricities fits exactly one model for every pair of a set `S` of removed planets and a set `T` of planets that still have a free eccentricity parameter once
those in `S` are removed. -/
theorem C101_mixed (c : CompConsts α) (opt : Dict Key (Row α) → List Nat → Nat → α) (p : CPost α) (es cs : List PName) (hes : p.basis.eparams = .ok es) (hcs : p.basis.circparams = .ok cs)
    (hp : HasRows (es ++ cs) p) (mc : List (CompEntry α)) :
    ∃ L : List (Finset Nat × Finset Nat), L.Nodup ∧ (∀ S T, (S, T) ∈ L ↔ S ⊆ candidates (es ++ cs) p ∧ T ⊆ candidates es (withoutPlanets c.zero c.negInf (es ++ cs) S p)) ∧
      modelComp c opt [.nplanets, .e] p mc =
        (L.mapM fun x => leafComp opt (circularModel c.zero es x.2 (withoutPlanets c.zero c.negInf (es ++ cs) x.1 p).relist).relist).map fun r => (mc ++ r.map Prod.fst, p) := by
  obtain ⟨h1, h2⟩ := groups_subsets (es ++ cs) p
  let W := fun S => (withoutPlanets c.zero c.negInf (es ++ cs) S p).relist
  refine ⟨(subsetOrder (es ++ cs) p).flatMap fun S => (subsetOrder es (W S)).map fun T => (S, T), ?_, ?_, ?_⟩
  · rw [List.nodup_flatMap]
    refine ⟨fun S _ => (groups_subsets es (W S)).1.map (fun a b h => by simpa using h), ?_⟩
    refine List.Pairwise.imp ?_ h1
    intro S S' hne x hx hx'
    obtain ⟨_, _, rfl⟩ := List.mem_map.1 hx
    obtain ⟨_, _, h⟩ := List.mem_map.1 hx'
    simp at h
    exact hne h.1.symm
  · intro S T
    simp only [List.mem_flatMap, List.mem_map, Prod.mk.injEq]
    constructor
    · rintro ⟨S', hS, T', hT, rfl, rfl⟩
      exact ⟨(h2 _).1 hS, ((groups_subsets es (W S')).2 _).1 hT⟩
    · rintro ⟨hS, hT⟩
      exact ⟨S, (h2 _).2 hS, T, ((groups_subsets es (W S)).2 _).2 hT, rfl, rfl⟩
  · rw [modelComp_planets_e, planetStage_eq c _ p es cs hes hcs hp mc]
    rw [runAll_flatMap _ (modelComp c opt []) (fun q => (subsetOrder es q).map fun T => (circularModel c.zero es T q).relist)]
    · rw [runAll_leaf]
      have : ((subsetOrder (es ++ cs) p).map W).flatMap (fun q => (subsetOrder es q).map fun T => (circularModel c.zero es T q).relist) =
          ((subsetOrder (es ++ cs) p).flatMap fun S => (subsetOrder es (W S)).map fun T => (S, T)).map fun x => (circularModel c.zero es x.2 (W x.1)).relist := by
        rw [List.flatMap_map, List.map_flatMap]
        congr 1
        funext S
        rw [List.map_map]
        rfl
      rw [show (subsetOrder (es ++ cs) p).map (fun S => (withoutPlanets c.zero c.negInf (es ++ cs) S p).relist) = (subsetOrder (es ++ cs) p).map W from rfl, this, mapM_map]
      rcases List.mapM _ _ with e | r <;> rfl
    · intro q hq mc'
      obtain ⟨S, _, rfl⟩ := List.mem_map.1 hq
      rw [modelComp_e]
      apply eStage_eq c _ (withoutPlanets c.zero c.negInf (es ++ cs) S p).relist es hes
      refine ⟨?_, ?_⟩
      · show (withoutPlanets c.zero c.negInf (es ++ cs) S p).vec.keys.Nodup
        rw [withoutPlanets_keys]; exact hp.nodup
      · intro n h1 h2 w hw
        show _ ∈ (withoutPlanets c.zero c.negInf (es ++ cs) S p).vec.keys
        rw [withoutPlanets_keys]
        exact hp.rows n h1 h2 w (by simp [hw])

/-- Two planets: the first with free eccentricity and amplitude, the second with only the amplitude free; a free slope, a fixed curvature, one free jitter. -/
def twoPlanets : CPost Int where
  vec := [(.orb .per 1, ⟨10, false, 0, false⟩), (.orb .tc 1, ⟨0, false, 0, false⟩), (.orb .secosw 1, ⟨3, true, 0, false⟩), (.orb .sesinw 1, ⟨4, true, 0, false⟩), (.orb .k 1, ⟨5, true, 0, false⟩),
    (.orb .per 2, ⟨20, false, 0, false⟩), (.orb .tc 2, ⟨0, false, 0, false⟩), (.orb .secosw 2, ⟨0, false, 0, false⟩), (.orb .sesinw 2, ⟨0, false, 0, false⟩), (.orb .k 2, ⟨6, true, 0, false⟩),
    (.dvdt, ⟨1, true, 0, false⟩), (.curv, ⟨0, false, 0, false⟩), (.inst .jit "", ⟨2, true, 0, false⟩)]
  dictVary := []
  likeCache := none
  postCache := none
  basis := .perTcSecoswSesinwK
  nplanets := 2
  hnames := []

/-- Non-vacuity of `C70_e`, `C70_nplanets`, `C70_trend` and `C101_mixed`: one candidate for eccentricity, two planets. -/
example : HasRows [.secosw, .sesinw, .per, .tc, .k] twoPlanets ∧ Key.curv ∈ twoPlanets.vec.keys ∧ Key.dvdt ∈ twoPlanets.vec.keys ∧
    candidates [.secosw, .sesinw] twoPlanets = {1} ∧ candidates [.secosw, .sesinw, .per, .tc, .k] twoPlanets = {1, 2} := by
  refine ⟨⟨by decide, ?_⟩, by decide, by decide, by decide, by decide⟩
  intro n h1 h2 w hw
  have h2' : n ≤ 2 := h2
  have : n = 1 ∨ n = 2 := by omega
  rcases this with rfl | rfl <;> revert w <;> decide

/-- Non-vacuity of `C70_entry`. -/
example : ∃ en q', leafComp (fun _ _ _ => (7 : Int)) twoPlanets.relist = .ok (en, q') ∧ en.nfree = 6 := by
  refine ⟨_, _, rfl, ?_⟩
  decide

end Radvel
