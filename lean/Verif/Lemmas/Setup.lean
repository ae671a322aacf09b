import Verif.Spec.Setup
import Verif.Lemmas.Built
import Verif.Lemmas.GPWitness
import Mathlib.Data.List.Perm.Basic
import Mathlib.Data.List.Dedup

/-! Helper lemmas about `initialize_posterior`. -/

namespace Radvel

theorem Dict.set_same {κ ν : Type} [DecidableEq κ] (d : Dict κ ν) {k : κ} {v : ν} (h : d.get? k = some v) : d.set k v = d := by
  induction d with
  | nil => simp at h
  | cons p t ih =>
    obtain ⟨a, b⟩ := p
    unfold Dict.set
    by_cases hk : a = k
    · simp [hk] at h ⊢; exact h.symm
    · simp only [Dict.get?_cons, hk, if_false] at h ⊢
      rw [ih h]

theorem addExtra_new (acc : VState ℝ × Nat) (key k : Key) (q : Parameter ℝ) (h : (addExtra acc key).1.params.items.get? k = some q) :
    acc.1.params.items.get? k = some q ∨ (k = key ∧ k ∉ acc.1.params.items.keys ∧ q = { value := 0 }) := by
  have hp : (addExtra acc key).1.params = if acc.1.params.items.has key then acc.1.params else acc.1.params.setItem key { value := 0 } := by
    unfold addExtra; simp only; split <;> rfl
  rw [hp] at h
  split at h
  · exact Or.inl h
  · next hk =>
    simp only [Params.setItem, Dict.get?_set] at h
    split at h
    · next he =>
      subst he
      rw [Dict.has_iff] at hk
      exact Or.inr ⟨rfl, hk, (Option.some.inj h).symm⟩
    · exact Or.inl h

theorem addExtras_new (ks : List Key) (s : VState ℝ) (n : Nat) (k : Key) (q : Parameter ℝ)
    (h : (ks.foldl addExtra (s, n)).1.params.items.get? k = some q) :
    s.params.items.get? k = some q ∨ (k ∈ ks ∧ k ∉ s.params.items.keys ∧ q = { value := 0 }) := by
  induction ks generalizing s n with
  | nil => exact Or.inl h
  | cons a t ih =>
    rcases ih (addExtra (s, n) a).1 (addExtra (s, n) a).2 h with h1 | ⟨h1, h2, h3⟩
    · rcases addExtra_new (s, n) a k q h1 with h1 | ⟨h1, h2, h3⟩
      · exact Or.inl h1
      · exact Or.inr ⟨by simp [h1], h2, h3⟩
    · refine Or.inr ⟨by simp [h1], ?_, h3⟩
      intro hk
      exact h2 ((addExtra_keys (s, n) a).1 k hk)

theorem addLikelihood_params (s s' : VState ℝ) (extra decorr : List Key) (h : s.addLikelihood extra decorr = .ok s') :
    s'.params = ((extra ++ decorr).foldl addExtra (s, s.rows.length)).1.params := by
  unfold VState.addLikelihood at h
  simp only at h
  rcases h1 : (((extra ++ decorr).foldl addExtra (s, s.rows.length)).1).dictToVector with e | s2
  · rw [h1] at h; cases h
  · rw [h1] at h
    have hs2 : s2.params = ((extra ++ decorr).foldl addExtra (s, s.rows.length)).1.params := by
      unfold VState.dictToVector at h1
      split at h1
      · cases h1; rfl
      · cases h1
    have hs' : s'.params = s2.params := by
      simp only [VState.vectorNames] at h
      split at h
      · cases h
      · split at h
        · cases h
        · split at h
          · cases h
          · cases h; rfl
    rw [hs', hs2]

/-- What is known of the state in the loop over instruments: the vector is fresh, the parameters of the setup file are untouched, everything else is a decorrelation
coefficient at its default. -/
structure SetupInv (p0 : Dict Key (Parameter ℝ)) (vars insts : List String) (s : VState ℝ) : Prop where
  fresh : Fresh s
  names : FreshNames s
  keep : ∀ k q, p0.get? k = some q → s.params.items.get? k = some q
  new : ∀ k q, s.params.items.get? k = some q → p0.get? k = some q ∨
    (∃ d ∈ vars, ∃ i ∈ insts, k = .other (decorrName ("_" ++ i) d)) ∧ q = { value := 0 }

theorem SetupInv.weaken {p0 : Dict Key (Parameter ℝ)} {vars insts insts' : List String} {s : VState ℝ} (h : SetupInv p0 vars insts s)
    (hi : ∀ i ∈ insts, i ∈ insts') : SetupInv p0 vars insts' s := by
  refine ⟨h.fresh, h.names, h.keep, ?_⟩
  intro k q hk
  rcases h.new k q hk with h1 | ⟨⟨d, hd, i, hi', he⟩, hq⟩
  · exact Or.inl h1
  · exact Or.inr ⟨⟨d, hd, i, hi i hi', he⟩, hq⟩

/-- Making a white-noise likelihood for an instrument whose `gamma` and `jit` are declared. -/
theorem SetupInv.rv {p0 : Dict Key (Parameter ℝ)} {vars insts : List String} {s : VState ℝ} (h : SetupInv p0 vars insts s) (obs : List Obs) (inst : String)
    (hg : Key.inst .gamma ("_" ++ inst) ∈ p0.keys) (hj : Key.inst .jit ("_" ++ inst) ∈ p0.keys)
    (vars' : List String) (hv : ∀ d ∈ vars', d ∈ vars) (dv : List (List Char)) :
    ∃ s' L, RVLike.new s obs ("_" ++ inst) vars' dv = .ok (s', L) ∧ SetupInv p0 vars (insts ++ [inst]) s' ∧ L.obs = obs ∧ L.suffix = "_" ++ inst ∧
      L.decParams = vars'.map (decorrName ("_" ++ inst)) ∧ L.decVars = dv ∧
      s'.indices.get? (.inst .gamma ("_" ++ inst)) = some L.gammaIdx ∧ s'.indices.get? (.inst .jit ("_" ++ inst)) = some L.jitIdx := by
  have hks : ∀ k ∈ [Key.inst .gamma ("_" ++ inst), Key.inst .jit ("_" ++ inst)] ++ (vars'.map (decorrName ("_" ++ inst))).map Key.other, ∀ p n, k ≠ .orb p n := by
    intro k hk p n
    simp only [List.cons_append, List.nil_append, List.mem_cons, List.mem_map] at hk
    rcases hk with rfl | rfl | ⟨_, _, rfl⟩ <;> simp
  obtain ⟨s', a1, a2, a3, a4, a5, a6, a7, a8⟩ := likelihood_fresh h.fresh.inv _ _ hks (by rw [h.fresh.ui]; simp)
  have hidx : ∀ k ∈ s'.params.items.keys, ∃ i, s'.indices.get? k = some i := fun k hk => a2.inv.indexed_of_not_mem a2.ui (Or.inl hk)
  obtain ⟨g, hgi⟩ := hidx _ (a5 (.inst .gamma ("_" ++ inst)) (by simp))
  obtain ⟨j, hji⟩ := hidx _ (a5 (.inst .jit ("_" ++ inst)) (by simp))
  refine ⟨s', { suffix := "_" ++ inst, obs := obs, decVars := dv, decParams := vars'.map (decorrName ("_" ++ inst)), gammaIdx := g, jitIdx := j }, ?_, ⟨a2, a3, fun k q hk => a8 k q (h.keep k q hk), ?_⟩, rfl, rfl, rfl, rfl, hgi, hji⟩
  · simp only [RVLike.new, a1, hgi, hji]
  · intro k q hk
    rw [addLikelihood_params _ _ _ _ a1] at hk
    rcases addExtras_new _ _ _ _ _ hk with h1 | ⟨h1, h2, h3⟩
    · rcases h.new k q h1 with h4 | ⟨⟨d, hd, i, hi, he⟩, hq⟩
      · exact Or.inl h4
      · exact Or.inr ⟨⟨d, hd, i, by simp [hi], he⟩, hq⟩
    · simp only [List.cons_append, List.nil_append, List.mem_cons, List.mem_map] at h1
      have hdecl : ∀ k, k ∈ p0.keys → k ∈ s.params.items.keys := by
        intro k hk
        obtain ⟨q, hq⟩ := Dict.exists_get?_of_mem _ hk
        exact Dict.mem_keys_of_get? _ (h.keep k q hq)
      rcases h1 with rfl | rfl | ⟨_, ⟨d, hd, rfl⟩, rfl⟩
      · exact absurd (hdecl _ hg) h2
      · exact absurd (hdecl _ hj) h2
      · exact Or.inr ⟨⟨d, hv d hd, inst, by simp, rfl⟩, h3⟩

theorem copyParams_get? (dflt : ℝ) (p : Params ℝ) (hn : p.items.keys.Nodup) (g : InstKind) (r : String) :
    (copyParams dflt p).items.get? (.inst g r) = p.items.get? (.inst g r) := by
  unfold copyParams
  simp only
  rw [Dict.get?_update _ _ hn]
  rcases h : p.items.get? (.inst g r) with _ | q
  · rw [Option.none_or, Dict.get?_eq_none_iff, Params.init_keys]
    simp [defaultKeys]
  · rfl

/-- Putting the setup file's own `gamma` or `jit` back changes nothing. -/
theorem resetPar_same {p0 : Params ℝ} {vars insts : List String} {s : VState ℝ} (h : SetupInv p0.items vars insts s) (hn : p0.items.keys.Nodup) (dflt : ℝ)
    (g : InstKind) (r : String) :
    resetPar (copyParams dflt p0) s (.inst g r) = if Key.inst g r ∈ p0.items.keys then .ok s else .error .keyError := by
  unfold resetPar
  rw [copyParams_get? _ _ hn]
  split
  · next h1 => rw [if_neg ((Dict.get?_eq_none_iff _ _).1 h1)]
  · next q h1 =>
    rw [if_pos (Dict.mem_keys_of_get? _ h1)]
    congr 1
    have := Dict.set_same _ (h.keep _ _ h1)
    simp only [Params.setItem, this]

/-! ### which rows a likelihood holds -/

/-- A member of the composite holds the rows `rows`. -/
structure Member.Holds (m : Member) (inst : String) (rows : List DataRow) : Prop where
  x : m.x = rows.map DataRow.t
  y : m.y = rows.map DataRow.y
  yerr : m.yerr = rows.map DataRow.err
  tel : m.telvec = rows.map (fun _ => inst)
  gamma : m.gammaParam = .inst .gamma ("_" ++ inst)

theorem RVLike.new_inv {s : VState ℝ} {obs : List Obs} {suffix : String} {vars : List String} {dv : List (List Char)} {r : VState ℝ × RVLike}
    (h : RVLike.new s obs suffix vars dv = .ok r) :
    s.addLikelihood [.inst .gamma suffix, .inst .jit suffix] ((vars.map (decorrName suffix)).map Key.other) = .ok r.1 ∧ r.2.obs = obs ∧ r.2.suffix = suffix ∧
      r.2.decParams = vars.map (decorrName suffix) ∧ r.2.decVars = dv := by
  unfold RVLike.new at h
  simp only at h
  split at h
  · cases h
  · next s' hs =>
    split at h
    · cases h; exact ⟨hs, rfl, rfl, rfl, rfl⟩
    · cases h

theorem GPLike.new_rv {s : VState ℝ} {obs : List Obs} {hn : List Key} {suffix : String} {kind : KernelKind} {r : GPLike × GPState}
    (h : GPLike.new s obs hn suffix kind = .ok r) : RVLike.new s obs suffix [] [] = .ok (r.2.st, r.1.rv) ∧ r.1.hnames = hn := by
  unfold GPLike.new at h
  rcases h1 : RVLike.new s obs suffix [] [] with e | x
  · rw [h1] at h; cases h
  · rw [h1] at h
    simp only at h
    split at h
    · cases h
    · split at h
      · cases h
      · cases h; exact ⟨rfl, rfl⟩

/-- The rows a new likelihood holds: those of the instrument, in the order of the file unless it is a celerite likelihood. -/
theorem newLike_holds {P : SetupFile} {vars : List String} {s : VState ℝ} {inst : String} {r : VState ℝ × InstLike} (h : P.newLike vars s inst = .ok r) :
    ∃ rows, rows.Perm (P.rowsOf inst) ∧ (r.2.member inst).Holds inst rows ∧
      ((∀ L hn c, r.2 ≠ .celerite L hn c) → rows = P.rowsOf inst) := by
  unfold SetupFile.newLike at h
  simp only at h
  split at h
  · rcases h1 : RVLike.new s ((P.rowsOf inst).map DataRow.obs) ("_" ++ inst) vars (vars.map String.toList) with e | x
    · rw [h1] at h; cases h
    · rw [h1] at h; cases h
      obtain ⟨_, ho, hs, _⟩ := RVLike.new_inv h1
      refine ⟨P.rowsOf inst, .refl _, ⟨?_, ?_, ?_, ?_, ?_⟩, fun _ => rfl⟩ <;> simp [InstLike.member, ho, hs, DataRow.obs]
  · split at h
    · cases h
    · next hn _ =>
      split at h
      · cases h
      · next kn _ =>
        unfold newGP at h
        split at h
        · next kind _ =>
          rcases h1 : GPLike.new s ((P.rowsOf inst).map DataRow.obs) hn ("_" ++ inst) kind with e | x
          · rw [h1] at h; cases h
          · rw [h1] at h; cases h
            obtain ⟨_, ho, hs, _⟩ := RVLike.new_inv (GPLike.new_rv h1).1
            simp only at ho hs
            refine ⟨P.rowsOf inst, .refl _, ⟨?_, ?_, ?_, ?_, ?_⟩, fun _ => rfl⟩ <;> simp [InstLike.member, ho, hs, DataRow.obs]
        · split at h <;> cases h
        · rcases h1 : RVLike.new s ((P.rowsOf inst).map DataRow.obs) ("_" ++ inst) [] [] with e | x
          · rw [h1] at h; cases h
          · rw [h1] at h
            simp only at h
            obtain ⟨_, ho, hs, _⟩ := RVLike.new_inv h1
            split at h
            · cases h
            · split at h
              · cases h
                have hp : (CelLike.new ((P.rowsOf inst).map DataRow.obs)).obs.Perm ((P.rowsOf inst).map DataRow.obs) := List.mergeSort_perm _ _
                obtain ⟨rows, hr, hm⟩ : ∃ rows : List DataRow, rows.Perm (P.rowsOf inst) ∧ rows.map DataRow.obs = (CelLike.new ((P.rowsOf inst).map DataRow.obs)).obs := by
                  have := (congrFun (congrFun (List.eq_map_comp_perm DataRow.obs) _) _).mpr hp
                  obtain ⟨rows, h1, h2⟩ := this
                  exact ⟨rows, h2, h1.symm⟩
                refine ⟨rows, hr, ⟨?_, ?_, ?_, ?_, ?_⟩, fun hne => absurd rfl (hne _ _ _)⟩
                all_goals simp [InstLike.member, ho, hs, ← hm, DataRow.obs]
                rw [← hr.length_eq]
              · cases h

/-! ### the loop over instruments -/

theorem addInst_inv {P : SetupFile} {vars : List String} {ip : Params ℝ} {acc r : VState ℝ × Dict String InstLike} {inst : String}
    (h : P.addInst vars ip acc inst = .ok r) :
    P.rowsOf inst ≠ [] ∧ P.checkColumns vars = .ok () ∧ ∃ s L s1, P.newLike vars acc.1 inst = .ok (s, L) ∧
      resetPar ip s (.inst .gamma ("_" ++ inst)) = .ok s1 ∧ resetPar ip s1 (.inst .jit ("_" ++ inst)) = .ok r.1 ∧ r.2 = acc.2.set inst L := by
  unfold SetupFile.addInst at h
  split at h
  · cases h
  · next h0 =>
    split at h
    · cases h
    · next hc =>
      split at h
      · cases h
      · next s L hL =>
        split at h
        · cases h
        · next s1 h1 =>
          split at h
          · cases h
          · next s2 h2 =>
            cases h
            exact ⟨h0, hc, s, L, s1, hL, h1, h2, rfl⟩

/-- What the dictionary of likelihoods holds after the loop. -/
theorem instLoop_holds {P : SetupFile} {vars : List String} {ip : Params ℝ} (insts : List String) (acc r : VState ℝ × Dict String InstLike)
    (h : insts.foldlM (P.addInst vars ip) acc = .ok r)
    (hacc : ∀ i L, (i, L) ∈ acc.2 → ∃ rows, rows.Perm (P.rowsOf i) ∧ (L.member i).Holds i rows ∧ ((∀ l hn c, L ≠ .celerite l hn c) → rows = P.rowsOf i))
    (hn : acc.2.keys.Nodup) :
    (∀ i L, (i, L) ∈ r.2 → ∃ rows, rows.Perm (P.rowsOf i) ∧ (L.member i).Holds i rows ∧ ((∀ l hn c, L ≠ .celerite l hn c) → rows = P.rowsOf i)) ∧
    r.2.keys.Nodup ∧ r.2.keys = acc.2.keys ++ (firsts insts).filter (· ∉ acc.2.keys) := by
  induction insts generalizing acc with
  | nil => cases h; exact ⟨hacc, hn, by simp [firsts]⟩
  | cons a t ih =>
    change (P.addInst vars ip acc a >>= _) = _ at h
    rcases h1 : P.addInst vars ip acc a with e | acc'
    · rw [h1] at h; cases h
    · rw [h1] at h
      obtain ⟨_, _, s, L, s1, hL, _, _, hset⟩ := addInst_inv h1
      have hn' : acc'.2.keys.Nodup := by rw [hset]; exact Dict.nodup_keys_set _ _ _ hn
      obtain ⟨i1, i2, i3⟩ := ih acc' h (by
        intro i L' hm
        have := Dict.get?_of_mem_nodup _ hn' hm
        rw [hset, Dict.get?_set] at this
        split at this
        · next he => subst he; cases this; exact newLike_holds hL
        · exact hacc i L' (Dict.mem_of_get? _ this)) hn'
      refine ⟨i1, i2, ?_⟩
      rw [i3, hset]
      by_cases hm : a ∈ acc.2.keys
      · rw [Dict.keys_set_of_mem _ _ hm]
        congr 1
        simp only [firsts, List.filter_cons, hm, not_true, decide_false, Bool.false_eq_true, if_false, List.filter_filter]
        apply List.filter_congr
        intro x _
        by_cases hx : x = a
        · subst hx; simp [hm]
        · simp [hx]
      · rw [Dict.keys_set_of_not_mem _ _ hm]
        simp only [firsts, List.filter_cons, hm, not_false_iff, decide_true, if_true, List.filter_filter, List.append_assoc, List.singleton_append]
        congr 2
        apply List.filter_congr
        intro x _
        by_cases h1 : x = a <;> by_cases h2 : x ∈ acc.2.keys <;> simp [h1, h2]

theorem mem_firsts (l : List String) (x : String) : x ∈ firsts l ↔ x ∈ l := by
  induction l with
  | nil => simp [firsts]
  | cons a t ih =>
    simp only [firsts, List.mem_cons, List.mem_filter, ih]
    by_cases h : x = a <;> simp [h]

theorem nodup_firsts (l : List String) : (firsts l).Nodup := by
  induction l with
  | nil => simp [firsts]
  | cons a t ih =>
    simp only [firsts, List.nodup_cons, List.mem_filter]
    exact ⟨by simp, ih.filter _⟩

/-- Grouping rows by instrument loses and repeats nothing. -/
theorem groups_perm (data : List DataRow) (insts : List String) (hn : insts.Nodup) :
    (insts.flatMap (fun i => data.filter (fun r => r.tel == i))).Perm (data.filter (fun r => r.tel ∈ insts)) := by
  induction insts with
  | nil => simp
  | cons a t ih =>
    rw [List.nodup_cons] at hn
    simp only [List.flatMap_cons]
    have h1 := (List.filter_append_perm (fun r : DataRow => r.tel == a) (data.filter (fun r => r.tel ∈ a :: t))).symm
    refine List.Perm.trans ?_ h1.symm
    refine List.Perm.append ?_ ?_
    · rw [List.filter_filter]
      apply List.Perm.of_eq
      apply List.filter_congr
      intro x _
      by_cases h : x.tel = a <;> simp [h]
    · refine (ih hn.2).trans (List.Perm.of_eq ?_)
      rw [List.filter_filter]
      apply List.filter_congr
      intro x _
      by_cases h : x.tel = a
      · simp [h, hn.1]
      · simp [h]

/-! ### the composite -/

theorem compositeFold (s : VState ℝ) (t : List Member) (c0 c : CompositeData) (h : t.foldlM (compositeAppend s) c0 = .ok c) :
    c.x = c0.x ++ t.flatMap Member.x ∧ c.yerr = c0.yerr ++ t.flatMap Member.yerr ∧ c.telvec = c0.telvec ++ t.flatMap Member.telvec ∧
    ∀ g : Key → ℝ, (∀ m ∈ t, ∀ v, readPar s m.gammaParam = .ok v → g m.gammaParam = v) →
      (∀ m ∈ t, readPar s m.gammaParam = .ok (g m.gammaParam)) ∧ c.y = c0.y ++ t.flatMap (fun m => m.y.map (· - g m.gammaParam)) := by
  induction t generalizing c0 with
  | nil => cases h; simp
  | cons m t ih =>
    change (compositeAppend s c0 m >>= _) = _ at h
    rcases h1 : compositeAppend s c0 m with e | c1
    · rw [h1] at h; cases h
    · rw [h1] at h
      obtain ⟨i1, i2, i3, i4⟩ := ih c1 h
      unfold compositeAppend at h1
      rcases h2 : readPar s m.gammaParam with e | v
      · rw [h2] at h1; cases h1
      · rw [h2] at h1
        cases h1
        refine ⟨by simp [i1], by simp [i2], by simp [i3], ?_⟩
        intro g hg
        obtain ⟨j1, j2⟩ := i4 g (fun m' hm' => hg m' (by simp [hm']))
        have hv := hg m (by simp) v h2
        refine ⟨?_, ?_⟩
        · intro m' hm'
          rcases List.mem_cons.1 hm' with rfl | hm'
          · rw [h2, hv]
          · exact j1 m' hm'
        · rw [j2]; simp [hv]

theorem compositeFold_ok (s : VState ℝ) (t : List Member) (c0 : CompositeData) (h : ∀ m ∈ t, ∃ v, readPar s m.gammaParam = .ok v) :
    ∃ c, t.foldlM (compositeAppend s) c0 = .ok c := by
  induction t generalizing c0 with
  | nil => exact ⟨c0, rfl⟩
  | cons m t ih =>
    obtain ⟨v, hv⟩ := h m (by simp)
    simp only [List.foldlM_cons, compositeAppend, hv]
    exact ih _ (fun m' hm' => h m' (by simp [hm']))

/-! ### success -/

theorem checkColumns_ok (P : SetupFile) (vars : List String) : P.checkColumns vars = .ok () ↔ ∀ v ∈ vars, v ∈ P.columns := by
  induction vars with
  | nil => simp [SetupFile.checkColumns]
  | cons d t ih =>
    unfold SetupFile.checkColumns
    by_cases h : d ∈ P.columns
    · simp [h, ih]
    · simp [h]

theorem convertLogjit_none (ks : List Key) (d : Dict Key (Parameter ℝ)) (h : ∀ r, Key.inst .logjit r ∉ ks) : convertLogjit ks d = .ok d := by
  induction ks with
  | nil => rfl
  | cons k t ih =>
    have ht := ih (fun r hr => h r (by simp [hr]))
    cases k with
    | inst g r =>
      cases g with
      | logjit => exact absurd (by simp) (h r)
      | _ => exact ht
    | _ => exact ht

/-- The member the composite gets always names the instrument's own `gamma`. -/
theorem SetupInv.newLike {P : SetupFile} {vars insts : List String} {s : VState ℝ} {inst : String} (h : SetupInv P.params.items vars insts s)
    (hr : InstReady P inst) : ∃ s' L, P.newLike vars s inst = .ok (s', L) ∧ SetupInv P.params.items vars (insts ++ [inst]) s' := by
  have hkeep : ∀ s' : VState ℝ, SetupInv P.params.items vars (insts ++ [inst]) s' → ∀ k ∈ P.params.items.keys, k ∈ s'.params.items.keys := by
    intro s' hs' k hk
    obtain ⟨q, hq⟩ := Dict.exists_get?_of_mem _ hk
    exact Dict.mem_keys_of_get? _ (hs'.keep k q hq)
  unfold SetupFile.newLike
  simp only
  rcases hh : P.hnames with _ | d
  · obtain ⟨s', L, h1, h2, _⟩ := h.rv ((P.rowsOf inst).map DataRow.obs) inst hr.gamma hr.jit vars (fun _ h => h) (vars.map String.toList)
    exact ⟨s', .rv L, by simp only [h1], h2⟩
  · obtain ⟨hn, hd, hk, hker⟩ := hr.gp d hh
    obtain ⟨s', L, h1, h2, _⟩ := h.rv ((P.rowsOf inst).map DataRow.obs) inst hr.gamma hr.jit [] (by simp) []
    obtain ⟨hs, hmap⟩ := mapM_lookup_ok s' hn (fun k hk' => hkeep s' h2 k (hk k hk'))
    obtain ⟨m1, _⟩ := mapM_lookup_keys _ _ _ hmap
    obtain ⟨kn, hkn, hfit⟩ : ∃ kn, P.kernelOf inst = .ok kn ∧ HnamesFit hn kn := by
      rcases hker with ⟨h3, h4⟩ | ⟨e, kn, h3, h4, h5⟩
      · exact ⟨_, by simp [SetupFile.kernelOf, h3], h4⟩
      · exact ⟨kn, by simp [SetupFile.kernelOf, h3, h4], h5⟩
    simp only [hd, hkn]
    cases kn with
    | unknown => exact absurd hfit (by simp [HnamesFit])
    | matrix kind =>
      obtain ⟨f1, f2, f3⟩ := hfit
      have hlen : (Dict.update ([] : Dict Key ℝ) hs).length = kind.slots.length := by
        rw [update_nil_keys hs (by rw [m1]; exact f1), ← f2, ← m1, List.length_map]
      have hall : kind.slots.all (fun slot => ((Dict.update ([] : Dict Key ℝ) hs).foldl kind.assign []).has slot) = true := by
        rw [List.all_eq_true]
        intro slot hslot
        rw [newFold_has]
        right
        obtain ⟨k, hk1, hk2, hk3⟩ := f3 slot hslot
        refine ⟨hslot, k, ?_, ?_⟩
        · rw [Dict.mem_keys_update]; right
          rw [← m1] at hk1; exact hk1
        · unfold KernelKind.takes hasLength
          rw [Bool.and_eq_true]
          refine ⟨by rw [List.isPrefixOf_iff_prefix]; exact hk2, ?_⟩
          by_cases c1 : kind = .quasiPer
          · by_cases c2 : slot = "gp_per".toList
            · have := hk3 c1 c2
              simpa [c1, c2] using this
            · rw [decide_eq_false c2]; simp
          · rw [decide_eq_false c1]; simp
      have hker : Kernel.new kind (Dict.update [] hs) = .ok { kind := kind, hp := (Dict.update ([] : Dict Key ℝ) hs).foldl kind.assign [], x1 := [], x2 := [], cov := none } := by
        unfold Kernel.new
        simp only
        rw [if_neg (by rw [hlen]; simp), if_pos hall]
      simp only [newGP, GPLike.new, h1, hmap, hker]
      exact ⟨_, _, rfl, h2⟩
    | celerite =>
      have hok : celeriteKernelOk hn = true := by
        unfold celeriteKernelOk celeriteSlots
        rw [List.all_eq_true]
        intro slot hslot
        obtain ⟨k, hk1, hk2⟩ := hfit slot hslot
        rw [List.any_eq_true]
        exact ⟨k, hk1, by rw [List.isPrefixOf_iff_prefix]; exact hk2⟩
      simp only [newGP, h1, hmap, hok, if_true]
      exact ⟨_, _, rfl, h2⟩

theorem addInst_ok {P : SetupFile} {vars insts : List String} {acc : VState ℝ × Dict String InstLike} {inst : String} (dflt : ℝ)
    (hn : P.params.items.keys.Nodup) (h : SetupInv P.params.items vars insts acc.1) (hc : ∀ v ∈ vars, v ∈ P.columns)
    (hr : InstReady P inst) :
    ∃ r, P.addInst vars (copyParams dflt P.params) acc inst = .ok r ∧ SetupInv P.params.items vars (insts ++ [inst]) r.1 := by
  obtain ⟨s', L, h1, h2⟩ := h.newLike hr
  have hrows : P.rowsOf inst ≠ [] := by
    obtain ⟨r, hm, ht⟩ := hr.data
    exact List.ne_nil_of_mem (List.mem_filter.2 ⟨hm, by simp [ht]⟩)
  refine ⟨(s', acc.2.set inst L), ?_, h2⟩
  unfold SetupFile.addInst
  rw [if_neg hrows, (checkColumns_ok P vars).2 hc]
  simp only [h1]
  rw [resetPar_same h2 hn, if_pos hr.gamma]
  simp only
  rw [resetPar_same h2 hn, if_pos hr.jit]

/-- Whatever the state: an instrument without observations, `gamma` or `jit` raises. -/
theorem addInst_needs {P : SetupFile} {vars : List String} {acc r : VState ℝ × Dict String InstLike} {inst : String} (dflt : ℝ)
    (hn : P.params.items.keys.Nodup) (h : P.addInst vars (copyParams dflt P.params) acc inst = .ok r) :
    (∃ r ∈ P.data, r.tel = inst) ∧ Key.inst .gamma ("_" ++ inst) ∈ P.params.items.keys ∧ Key.inst .jit ("_" ++ inst) ∈ P.params.items.keys ∧
      (∀ v ∈ vars, v ∈ P.columns) := by
  obtain ⟨h0, h1, s, L, s1, h2, h3, h4, _⟩ := addInst_inv h
  have hreset : ∀ s s' g r', resetPar (copyParams dflt P.params) s (.inst g r') = .ok s' → Key.inst g r' ∈ P.params.items.keys := by
    intro s s' g r' hr
    unfold resetPar at hr
    rw [copyParams_get? _ _ hn] at hr
    split at hr
    · cases hr
    · next hq => exact Dict.mem_keys_of_get? _ hq
  refine ⟨?_, hreset _ _ _ _ h3, hreset _ _ _ _ h4, (checkColumns_ok P vars).1 h1⟩
  obtain ⟨r, hr⟩ := List.exists_mem_of_ne_nil _ h0
  obtain ⟨a, b⟩ := List.mem_filter.1 hr
  exact ⟨r, a, by simpa using b⟩

theorem instLoop_ok {P : SetupFile} {vars : List String} (dflt : ℝ) (hn : P.params.items.keys.Nodup) (hc : ∀ v ∈ vars, v ∈ P.columns)
    (l done : List String) (acc : VState ℝ × Dict String InstLike) (h : SetupInv P.params.items vars done acc.1) (hr : ∀ i ∈ l, InstReady P i) :
    ∃ r, l.foldlM (P.addInst vars (copyParams dflt P.params)) acc = .ok r ∧ SetupInv P.params.items vars (done ++ l) r.1 := by
  induction l generalizing done acc with
  | nil => exact ⟨acc, rfl, by simpa using h⟩
  | cons a t ih =>
    obtain ⟨r, h1, h2⟩ := addInst_ok dflt hn h hc (hr a (by simp))
    obtain ⟨r', h3, h4⟩ := ih (done ++ [a]) r h2 (fun i hi => hr i (by simp [hi]))
    refine ⟨r', ?_, by simpa using h4⟩
    rw [List.foldlM_cons, h1]
    exact h3

theorem instLoop_needs {P : SetupFile} {vars : List String} (dflt : ℝ) (hn : P.params.items.keys.Nodup)
    (l : List String) (acc r : VState ℝ × Dict String InstLike) (h : l.foldlM (P.addInst vars (copyParams dflt P.params)) acc = .ok r) :
    ∀ i ∈ l, (∃ r ∈ P.data, r.tel = i) ∧ Key.inst .gamma ("_" ++ i) ∈ P.params.items.keys ∧ Key.inst .jit ("_" ++ i) ∈ P.params.items.keys ∧
      (∀ v ∈ vars, v ∈ P.columns) := by
  induction l generalizing acc with
  | nil => simp
  | cons a t ih =>
    change (P.addInst vars (copyParams dflt P.params) acc a >>= _) = _ at h
    rcases h1 : P.addInst vars (copyParams dflt P.params) acc a with e | acc'
    · rw [h1] at h; cases h
    · rw [h1] at h
      intro i hi
      rcases List.mem_cons.1 hi with rfl | hi
      · exact addInst_needs dflt hn h1
      · exact ih acc' h i hi

/-- Every step of a successful loop makes a likelihood. -/
theorem instLoop_newLike {P : SetupFile} {vars : List String} {ip : Params ℝ} (l : List String) (acc r : VState ℝ × Dict String InstLike)
    (h : l.foldlM (P.addInst vars ip) acc = .ok r) : ∀ i ∈ l, ∃ s x, P.newLike vars s i = .ok x := by
  induction l generalizing acc with
  | nil => simp
  | cons a t ih =>
    change (P.addInst vars ip acc a >>= _) = _ at h
    rcases h1 : P.addInst vars ip acc a with e | acc'
    · rw [h1] at h; cases h
    · rw [h1] at h
      intro i hi
      rcases List.mem_cons.1 hi with rfl | hi
      · obtain ⟨_, _, s, L, s1, h2, _⟩ := addInst_inv h1
        exact ⟨acc.1, _, h2⟩
      · exact ih acc' h i hi

/-- What `initialize_posterior` has done if it returns. -/
theorem initialize_inv {dflt : ℝ} {P : SetupFile} {option : Bool} {r : SetupPost} (h : P.initialize dflt option = .ok r) :
    P.params.basis = P.fittingBasis ∧ ∃ vars items s, P.decorr option = .ok vars ∧ convertLogjit P.params.items.keys P.params.items = .ok items ∧
      VState.init { P.params with items := items } = .ok s ∧
      P.instnames.foldlM (P.addInst vars (copyParams dflt { P.params with items := items })) (s, []) = .ok (r.st, r.likes) ∧
      compositeInit r.st (r.likes.map (fun x => x.2.member x.1)) = .ok r.comp := by
  unfold SetupFile.initialize at h
  split at h
  · cases h
  · next hb =>
    refine ⟨not_not.1 hb, ?_⟩
    split at h
    · cases h
    · next vars hv =>
      split at h
      · cases h
      · next items hi =>
        simp only at h
        split at h
        · cases h
        · next s hs =>
          split at h
          · cases h
          · next s' likes hl =>
            split at h
            · cases h
            · next comp hcomp =>
              cases h
              exact ⟨vars, items, s, hv, hi, hs, hl, hcomp⟩

theorem newLike_rv {P : SetupFile} {vars : List String} {s : VState ℝ} {inst : String} {r : VState ℝ × InstLike} (h : P.newLike vars s inst = .ok r) :
    ∃ vars' dv L, (vars' = vars ∨ vars' = []) ∧ RVLike.new s ((P.rowsOf inst).map DataRow.obs) ("_" ++ inst) vars' dv = .ok (r.1, L) := by
  unfold SetupFile.newLike at h
  simp only at h
  split at h
  · rcases h1 : RVLike.new s ((P.rowsOf inst).map DataRow.obs) ("_" ++ inst) vars (vars.map String.toList) with e | x
    · rw [h1] at h; cases h
    · rw [h1] at h; cases h
      exact ⟨vars, _, _, .inl rfl, h1⟩
  · split at h
    · cases h
    · next hn _ =>
      split at h
      · cases h
      · next kn _ =>
        unfold newGP at h
        split at h
        · next kind _ =>
          rcases h1 : GPLike.new s ((P.rowsOf inst).map DataRow.obs) hn ("_" ++ inst) kind with e | x
          · rw [h1] at h; cases h
          · rw [h1] at h; cases h
            exact ⟨[], _, _, .inr rfl, (GPLike.new_rv h1).1⟩
        · split at h <;> cases h
        · rcases h1 : RVLike.new s ((P.rowsOf inst).map DataRow.obs) ("_" ++ inst) [] [] with e | x
          · rw [h1] at h; cases h
          · rw [h1] at h
            simp only at h
            split at h
            · cases h
            · split at h
              · cases h
                exact ⟨[], _, _, .inr rfl, h1⟩
              · cases h

/-- The invariant holds after every successful loop. -/
theorem instLoop_keeps {P : SetupFile} {vars : List String} (dflt : ℝ) (hn : P.params.items.keys.Nodup)
    (l done : List String) (acc r : VState ℝ × Dict String InstLike) (h : SetupInv P.params.items vars done acc.1)
    (hl : l.foldlM (P.addInst vars (copyParams dflt P.params)) acc = .ok r) : SetupInv P.params.items vars (done ++ l) r.1 := by
  induction l generalizing done acc with
  | nil => cases hl; simpa using h
  | cons a t ih =>
    change (P.addInst vars (copyParams dflt P.params) acc a >>= _) = _ at hl
    rcases h1 : P.addInst vars (copyParams dflt P.params) acc a with e | acc'
    · rw [h1] at hl; cases hl
    · rw [h1] at hl
      obtain ⟨_, hg, hj, _⟩ := addInst_needs dflt hn h1
      obtain ⟨_, _, s, L, s1, h2, h3, h4, _⟩ := addInst_inv h1
      obtain ⟨vars', dv, L', hv, hrv⟩ := newLike_rv h2
      obtain ⟨s', L'', k1, k2, _⟩ := h.rv ((P.rowsOf a).map DataRow.obs) a hg hj vars' (by rcases hv with rfl | rfl <;> simp) dv
      rw [k1] at hrv
      cases hrv
      rw [resetPar_same k2 hn, if_pos hg] at h3
      cases h3
      rw [resetPar_same k2 hn, if_pos hj] at h4
      have h5 : s = acc'.1 := Except.ok.inj h4
      rw [h5] at k2
      have := ih (done ++ [a]) acc' k2 hl
      simpa using this

/-- Whatever holds of every likelihood made for its instrument holds of all likelihoods of the result. -/
theorem instLoop_forall {P : SetupFile} {vars : List String} {ip : Params ℝ} (Q : String → InstLike → Prop)
    (hQ : ∀ i s x, P.newLike vars s i = .ok x → Q i x.2) (l : List String) (acc r : VState ℝ × Dict String InstLike)
    (h : l.foldlM (P.addInst vars ip) acc = .ok r) (hacc : ∀ i L, acc.2.get? i = some L → Q i L) : ∀ i L, r.2.get? i = some L → Q i L := by
  induction l generalizing acc with
  | nil => cases h; exact hacc
  | cons a t ih =>
    change (P.addInst vars ip acc a >>= _) = _ at h
    rcases h1 : P.addInst vars ip acc a with e | acc'
    · rw [h1] at h; cases h
    · rw [h1] at h
      refine ih acc' h ?_
      obtain ⟨_, _, s, L, s1, h2, _, _, h5⟩ := addInst_inv h1
      intro i L' hL'
      rw [h5, Dict.get?_set] at hL'
      split at hL'
      · next he => subst he; cases hL'; exact hQ _ _ _ h2
      · exact hacc i L' hL'

theorem resetPar_keys {ip : Params ℝ} {s s' : VState ℝ} {k : Key} (h : resetPar ip s k = .ok s') (x : Key) (hx : x ∈ s.params.items.keys) : x ∈ s'.params.items.keys := by
  unfold resetPar at h
  split at h
  · cases h
  · cases h
    simp only [Params.setItem]
    rw [Dict.mem_keys_set]
    exact .inr hx

theorem addExtra_grow (acc : VState ℝ × Nat) (k : Key) : (∀ x ∈ acc.1.params.items.keys, x ∈ (addExtra acc k).1.params.items.keys) ∧ k ∈ (addExtra acc k).1.params.items.keys :=
  ⟨(addExtra_keys acc k).1, (addExtra_keys acc k).2.1⟩

theorem addExtras_grow (ks : List Key) (acc : VState ℝ × Nat) :
    (∀ x ∈ acc.1.params.items.keys, x ∈ (ks.foldl addExtra acc).1.params.items.keys) ∧ ∀ k ∈ ks, k ∈ (ks.foldl addExtra acc).1.params.items.keys := by
  induction ks generalizing acc with
  | nil => simp
  | cons a t ih =>
    obtain ⟨h1, h2⟩ := addExtra_grow acc a
    obtain ⟨h3, h4⟩ := ih (addExtra acc a)
    refine ⟨fun x hx => h3 x (h1 x hx), ?_⟩
    intro k hk
    rcases List.mem_cons.1 hk with rfl | hk
    · exact h3 _ h2
    · exact h4 k hk

theorem newRV_keys {s : VState ℝ} {obs : List Obs} {suffix : String} {vars : List String} {dv : List (List Char)} {r : VState ℝ × RVLike}
    (h : RVLike.new s obs suffix vars dv = .ok r) :
    (∀ x ∈ s.params.items.keys, x ∈ r.1.params.items.keys) ∧ ∀ d ∈ vars, Key.other (decorrName suffix d) ∈ r.1.params.items.keys := by
  obtain ⟨h1, _⟩ := RVLike.new_inv h
  rw [addLikelihood_params _ _ _ _ h1]
  obtain ⟨a, b⟩ := addExtras_grow ([.inst .gamma suffix, .inst .jit suffix] ++ (vars.map (decorrName suffix)).map Key.other) (s, s.rows.length)
  refine ⟨a, fun d hd => b _ ?_⟩
  simp only [List.mem_append, List.mem_map]
  exact .inr ⟨_, ⟨d, hd, rfl⟩, rfl⟩

/-- Without GPs, every coefficient is in the final dictionary. -/
theorem instLoop_coeffs {P : SetupFile} {vars : List String} {ip : Params ℝ} (hh : P.hnames = none) (l : List String) (acc r : VState ℝ × Dict String InstLike)
    (h : l.foldlM (P.addInst vars ip) acc = .ok r) :
    (∀ k ∈ acc.1.params.items.keys, k ∈ r.1.params.items.keys) ∧ ∀ i ∈ l, ∀ d ∈ vars, Key.other (decorrName ("_" ++ i) d) ∈ r.1.params.items.keys := by
  induction l generalizing acc with
  | nil => cases h; simp
  | cons a t ih =>
    change (P.addInst vars ip acc a >>= _) = _ at h
    rcases h1 : P.addInst vars ip acc a with e | acc'
    · rw [h1] at h; cases h
    · rw [h1] at h
      obtain ⟨i1, i2⟩ := ih acc' h
      obtain ⟨_, _, s, L, s1, h2, h3, h4, _⟩ := addInst_inv h1
      have hstep : (∀ x ∈ acc.1.params.items.keys, x ∈ acc'.1.params.items.keys) ∧ ∀ d ∈ vars, Key.other (decorrName ("_" ++ a) d) ∈ acc'.1.params.items.keys := by
        simp only [SetupFile.newLike, hh] at h2
        rcases h5 : RVLike.new acc.1 ((P.rowsOf a).map DataRow.obs) ("_" ++ a) vars (vars.map String.toList) with e | x
        · rw [h5] at h2; cases h2
        · rw [h5] at h2; cases h2
          obtain ⟨c1, c2⟩ := newRV_keys h5
          exact ⟨fun x hx => resetPar_keys h4 _ (resetPar_keys h3 _ (c1 x hx)), fun d hd => resetPar_keys h4 _ (resetPar_keys h3 _ (c2 d hd))⟩
      refine ⟨fun k hk => i1 k (hstep.1 k hk), ?_⟩
      intro i hi d hd
      rcases List.mem_cons.1 hi with rfl | hi
      · exact i1 _ (hstep.2 d hd)
      · exact i2 i hi d hd

end Radvel
