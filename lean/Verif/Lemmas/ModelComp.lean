import Verif.Spec.ModelComp
import Verif.Lemmas.Combinations
import Verif.Lemmas.Dict

/-! The stages of model comparison as enumerations. -/

namespace Radvel

/-- Running a comparison on several posteriors, one after the other. -/
def runAll {α : Type} (rec : CompRec α) (ps : List (CPost α)) (mc : List (CompEntry α)) : Except PyErr (List (CompEntry α)) :=
  ps.foldlM (fun mc q => (rec q mc).map Prod.fst) mc

/-- Applying `f` to the rows stored under the keys in `ks`. -/
def mapRows {α : Type} (f : Key → Row α → Row α) (ks : List Key) (v : Dict Key (Row α)) : Dict Key (Row α) :=
  v.map fun kr => (kr.1, if kr.1 ∈ ks then f kr.1 kr.2 else kr.2)

theorem keys_mapRows {α : Type} (f : Key → Row α → Row α) (ks : List Key) (v : Dict Key (Row α)) : (mapRows f ks v).keys = v.keys := by
  simp [mapRows, Dict.keys, Function.comp_def]

theorem get?_mapRows {α : Type} (f : Key → Row α → Row α) (ks : List Key) (k : Key) : ∀ v : Dict Key (Row α),
    (mapRows f ks v).get? k = (v.get? k).map fun r => if k ∈ ks then f k r else r := by
  intro v
  induction v with
  | nil => rfl
  | cons a v ih =>
    show Dict.get? ((a.1, _) :: mapRows f ks v) k = _
    rw [Dict.get?_cons, Dict.get?_cons]
    by_cases h : a.1 = k
    · simp [h]
    · simp [h, ih]

/-- An edit of one row. -/
def Edits {α : Type} (edit : Dict Key (Row α) → Key → Except PyErr (Dict Key (Row α))) (f : Key → Row α → Row α) (k : Key) : Prop :=
  ∀ v r, v.get? k = some r → edit v k = .ok (v.set k (f k r))

theorem fold_edits {α : Type} {edit : Dict Key (Row α) → Key → Except PyErr (Dict Key (Row α))} {f : Key → Row α → Row α} : ∀ (ks : List Key) (v : Dict Key (Row α)),
    v.keys.Nodup → ks.Nodup → (∀ k ∈ ks, k ∈ v.keys) → (∀ k ∈ ks, Edits edit f k) → ks.foldlM edit v = .ok (mapRows f ks v) := by
  intro ks
  induction ks with
  | nil =>
    intro v _ _ _ _
    show Except.ok v = _
    simp [mapRows]
  | cons k ks ih =>
    intro v hv hk hin he
    rw [List.nodup_cons] at hk
    obtain ⟨r, hr⟩ := v.exists_get?_of_mem (hin k (by simp))
    rw [List.foldlM_cons, he k (by simp) v r hr]
    show List.foldlM edit (v.set k (f k r)) ks = _
    have hkeys : (v.set k (f k r)).keys = v.keys := Dict.keys_set_of_mem v _ (hin k (by simp))
    rw [ih _ (by rw [hkeys]; exact hv) hk.2 (fun k' h' => by rw [hkeys]; exact hin k' (by simp [h'])) (fun k' h' => he k' (by simp [h']))]
    congr 1
    apply Dict.ext_of_keys
    · rw [keys_mapRows, hkeys]; exact hv
    · rw [keys_mapRows, keys_mapRows, hkeys]
    · intro k'
      rw [get?_mapRows, get?_mapRows, Dict.get?_set]
      by_cases h : k = k'
      · subst h
        simp [hr, hk.1]
      · have h' : k' ≠ k := fun h0 => h h0.symm
        simp [h, h']

theorem mapM_ok {β γ : Type} (f : β → Except PyErr γ) (g : β → γ) : ∀ (l : List β), (∀ a ∈ l, f a = .ok (g a)) → l.mapM f = .ok (l.map g) := by
  intro l
  induction l with
  | nil => intro _; rfl
  | cons a l ih =>
    intro h
    rw [List.mapM_cons, h a (by simp), ih fun b hb => h b (by simp [hb])]
    rfl

/-- `vector[indices[k]][1]` as a total function. -/
def flagOf {α : Type} (v : Dict Key (Row α)) (k : Key) : Bool := ((v.get? k).map Row.vary).getD false

theorem getFlag_eq {α : Type} (v : Dict Key (Row α)) (k : Key) (h : k ∈ v.keys) : getFlag v k = .ok (flagOf v k) := by
  obtain ⟨r, hr⟩ := v.exists_get?_of_mem h
  simp [getFlag, flagOf, hr]

theorem anyFree_eq {α : Type} (v : Dict Key (Row α)) (ks : List Key) (h : ∀ k ∈ ks, k ∈ v.keys) : anyFree v ks = .ok (ks.any (flagOf v)) := by
  unfold anyFree
  rw [mapM_ok _ _ ks fun k hk => getFlag_eq v k (h k hk)]
  simp [bind, Except.bind, pure, Except.pure, List.any_map, Function.comp_def]

theorem nodup_planetKeys (ws : List PName) (hw : ws.Nodup) (g : List Nat) (hg : g.Nodup) : (g.flatMap (planetKeys ws)).Nodup := by
  rw [List.nodup_flatMap]
  refine ⟨fun n _ => hw.map (fun a b h => by simpa using h), ?_⟩
  refine hg.imp ?_
  intro a b hab k h1 h2
  obtain ⟨w, _, rfl⟩ := List.mem_map.1 h1
  obtain ⟨w', _, h⟩ := List.mem_map.1 h2
  simp at h
  exact hab h.2.symm

/-- All members of a group are candidates. -/
def groupFree {α : Type} (ws : List PName) (p : CPost α) (g : List Nat) : Bool := g.all fun n => (planetKeys ws n).any (flagOf p.vec)

theorem groupStep_eq {α : Type} {edit : Dict Key (Row α) → Key → Except PyErr (Dict Key (Row α))} {f : Key → Row α → Row α} {ws : List PName} (hw : ws.Nodup) {p : CPost α} (hp : HasRows ws p)
    (he : ∀ n, ∀ w ∈ ws, Edits edit f (.orb w n)) (rec : CompRec α) (g : List Nat) (hg : g.Sublist (planetNums p.nplanets)) (mc : List (CompEntry α)) :
    groupStep edit ws rec p mc g = if groupFree ws p g then (rec ({ p with vec := mapRows f (g.flatMap (planetKeys ws)) p.vec } : CPost α).relist mc).map Prod.fst else .ok mc := by
  have hin : ∀ n ∈ g, ∀ k ∈ planetKeys ws n, k ∈ p.vec.keys := by
    intro n hn k hk
    obtain ⟨w, hw', rfl⟩ := List.mem_map.1 hk
    have := (mem_planetNums _ _).1 (hg.subset hn)
    exact hp.rows n this.1 this.2 w hw'
  unfold groupStep
  rw [mapM_ok _ _ g fun n hn => anyFree_eq p.vec _ (hin n hn)]
  simp only [bind, Except.bind]
  have hb : (g.map fun n => (planetKeys ws n).any (flagOf p.vec)).all id = groupFree ws p g := by
    simp [groupFree, List.all_map, Function.comp_def]
  rw [hb]
  by_cases h : groupFree ws p g
  · rw [if_pos h, if_pos h]
    rw [fold_edits _ _ hp.nodup (nodup_planetKeys ws hw g (((planetNums_lt p.nplanets).imp fun h => h.ne).sublist hg))]
    · simp only
      rcases rec _ mc with e | r <;> rfl
    · intro k hk
      obtain ⟨n, hn, hk'⟩ := List.mem_flatMap.1 hk
      exact hin n hn k hk'
    · intro k hk
      obtain ⟨n, hn, hk'⟩ := List.mem_flatMap.1 hk
      obtain ⟨w, hw', rfl⟩ := List.mem_map.1 hk'
      exact he n w hw'
  · rw [if_neg h, if_neg h]; rfl

theorem runAll_append {α : Type} (rec : CompRec α) (ps qs : List (CPost α)) (mc : List (CompEntry α)) : runAll rec (ps ++ qs) mc = runAll rec ps mc >>= runAll rec qs := by
  unfold runAll; rw [List.foldlM_append]

theorem groupStage_eq {α : Type} {edit : Dict Key (Row α) → Key → Except PyErr (Dict Key (Row α))} {f : Key → Row α → Row α} {ws : List PName} (hw : ws.Nodup) {p : CPost α} (hp : HasRows ws p)
    (he : ∀ n, ∀ w ∈ ws, Edits edit f (.orb w n)) (rec : CompRec α) (mc : List (CompEntry α)) :
    groupStage edit ws rec p mc = (runAll rec (((planetGroups p.nplanets).filter (groupFree ws p)).map
      (fun g => ({ p with vec := mapRows f (g.flatMap (planetKeys ws)) p.vec } : CPost α).relist) ++ [p.relist]) mc).map fun l => (l, p) := by
  have hfold : ∀ (gs : List (List Nat)), (∀ g ∈ gs, g.Sublist (planetNums p.nplanets)) → ∀ mc, gs.foldlM (groupStep edit ws rec p) mc =
      runAll rec ((gs.filter (groupFree ws p)).map (fun g => ({ p with vec := mapRows f (g.flatMap (planetKeys ws)) p.vec } : CPost α).relist)) mc := by
    intro gs
    induction gs with
    | nil => intro _ mc; rfl
    | cons g gs ih =>
      intro h mc
      rw [List.foldlM_cons, groupStep_eq hw hp he rec g (h g (by simp)) mc]
      by_cases hg : groupFree ws p g
      · rw [if_pos hg, List.filter_cons_of_pos hg, List.map_cons]
        unfold runAll
        rw [List.foldlM_cons]
        congr 1
        funext mc'
        rw [ih (fun g' hg' => h g' (by simp [hg'])) mc']
        rfl
      · rw [if_neg hg, List.filter_cons_of_neg hg]
        exact ih (fun g' hg' => h g' (by simp [hg'])) mc
  unfold groupStage
  rw [runAll_append, hfold _ (fun g hg => ((mem_planetGroups _ _).1 hg).1)]
  rcases runAll rec _ mc with e | mc'
  · rfl
  · show (rec p.relist mc' >>= fun r => pure (r.1, p)) = (runAll rec [p.relist] mc').map _
    unfold runAll
    rw [List.foldlM_cons]
    rcases rec p.relist mc' with e | r <;> rfl

/-- Fitting several models one after the other. -/
theorem runAll_leaf {α : Type} (c : CompConsts α) (opt : Dict Key (Row α) → List Nat → Nat → α) : ∀ (ps : List (CPost α)) (mc : List (CompEntry α)),
    runAll (modelComp c opt []) ps mc = (ps.mapM (leafComp opt)).map fun es => mc ++ es.map Prod.fst := by
  intro ps
  induction ps with
  | nil => intro mc; show Except.ok mc = Except.ok _; simp
  | cons q ps ih =>
    intro mc
    have h0 : modelComp c opt [] q mc = (leafComp opt q >>= fun r => pure (mc ++ [r.1], r.2)) := by
      rw [modelComp]; rfl
    unfold runAll at ih ⊢
    rw [List.foldlM_cons, h0, List.mapM_cons]
    rcases leafComp opt q with e | r
    · rfl
    · show List.foldlM _ (mc ++ [r.1]) ps = _
      rw [ih]
      rcases ps.mapM (leafComp opt) with e | es
      · rfl
      · show Except.ok _ = Except.ok _
        simp

theorem mapM_map {β γ δ : Type} (f : γ → Except PyErr δ) (g : β → γ) : ∀ (l : List β), (l.map g).mapM f = l.mapM fun b => f (g b) := by
  intro l
  induction l with
  | nil => rfl
  | cons a l ih => rw [List.map_cons, List.mapM_cons, List.mapM_cons, ih]

/-- The groups of candidates and the empty group: every set of candidates once. -/
theorem groups_subsets {α : Type} (ws : List PName) (p : CPost α) :
    let L := (((planetGroups p.nplanets).filter (groupFree ws p)) ++ [[]]).map List.toFinset
    L.Nodup ∧ ∀ S, S ∈ L ↔ S ⊆ candidates ws p := by
  have hsub : ∀ g ∈ ((planetGroups p.nplanets).filter (groupFree ws p)) ++ [[]], g.Sublist (planetNums p.nplanets) := by
    intro g hg
    rcases List.mem_append.1 hg with h | h
    · exact ((mem_planetGroups _ _).1 (List.mem_filter.1 h).1).1
    · rw [List.mem_singleton] at h; subst h; simp
  have hcand : ∀ n, (1 ≤ n ∧ n ≤ p.nplanets) → ((planetKeys ws n).any (flagOf p.vec) = true ↔ n ∈ candidates ws p) := by
    intro n hn
    simp only [candidates, Finset.mem_filter, Finset.mem_range, List.any_eq_true, planetKeys, List.mem_map]
    constructor
    · rintro ⟨k, ⟨w, hw, rfl⟩, hf⟩
      refine ⟨by omega, hn.1, w, hw, ?_⟩
      unfold flagOf at hf
      rcases hg : (p.vec.get? (.orb w n)).map Row.vary with _ | b
      · rw [hg] at hf; cases hf
      · rw [hg] at hf; simp at hf; rw [hf]
    · rintro ⟨_, _, w, hw, hf⟩
      exact ⟨_, ⟨w, hw, rfl⟩, by unfold flagOf; rw [hf]; rfl⟩
  refine ⟨?_, ?_⟩
  · apply List.Nodup.map_on
    · intro g hg g' hg' h
      exact eq_of_toFinset ((planetNums_lt _).sublist (hsub g hg)) ((planetNums_lt _).sublist (hsub g' hg')) h
    · rw [List.nodup_append]
      refine ⟨(nodup_planetGroups _).filter _, by simp, ?_⟩
      rintro g hg g' hg' rfl
      rw [List.mem_singleton] at hg'
      exact ((mem_planetGroups _ _).1 (List.mem_filter.1 hg).1).2 hg'
  · intro S
    rw [List.mem_map]
    constructor
    · rintro ⟨g, hg, rfl⟩ n hn
      rw [List.mem_toFinset] at hn
      have hr := (mem_planetNums _ _).1 ((hsub g hg).subset hn)
      rcases List.mem_append.1 hg with h | h
      · have := (List.mem_filter.1 h).2
        unfold groupFree at this
        rw [List.all_eq_true] at this
        exact (hcand n hr).1 (this n hn)
      · rw [List.mem_singleton] at h; subst h; cases hn
    · intro hS
      have hin : ∀ n ∈ S, 1 ≤ n ∧ n ≤ p.nplanets := by
        intro n hn
        have := hS hn
        simp only [candidates, Finset.mem_filter, Finset.mem_range] at this
        exact ⟨this.2.1, by omega⟩
      refine ⟨(planetNums p.nplanets).filter (· ∈ S), ?_, ?_⟩
      · rw [List.mem_append]
        by_cases h0 : (planetNums p.nplanets).filter (· ∈ S) = []
        · exact .inr (by simp [h0])
        · left
          rw [List.mem_filter]
          refine ⟨(mem_planetGroups _ _).2 ⟨List.filter_sublist, h0⟩, ?_⟩
          unfold groupFree
          rw [List.all_eq_true]
          intro n hn
          have hn' := (List.mem_filter.1 hn).2
          simp at hn'
          exact (hcand n (hin n hn')).2 (hS hn')
      · ext n
        simp only [List.mem_toFinset, List.mem_filter, decide_eq_true_eq, mem_planetNums]
        exact ⟨fun h => h.2, fun h => ⟨hin n h, h⟩⟩

end Radvel
