import Verif.Props.ModelComp

/-! # C71-C74 and C100: what model comparison depends on, what it changes, and what the driver keeps -/

namespace Radvel

variable {α : Type}

/-! ## C71 -/

/-- The comparison extends the list it is given by something that does not depend on that list. -/
def Appends (rec : CompRec α) : Prop := ∀ p mc, rec p mc = (rec p []).map fun x => (mc ++ x.1, x.2)

/-- The comparison always adds an entry. -/
def Grows (rec : CompRec α) : Prop := ∀ p mc r, rec p mc = .ok r → mc.length < r.1.length

theorem foldlM_appends {β : Type} (step : List (CompEntry α) → β → Except PyErr (List (CompEntry α))) (h : ∀ mc b, step mc b = (step [] b).map (mc ++ ·)) :
    ∀ (l : List β) (mc : List (CompEntry α)), l.foldlM step mc = (l.foldlM step []).map (mc ++ ·) := by
  intro l
  induction l with
  | nil => intro mc; show Except.ok mc = Except.ok (mc ++ []); simp
  | cons b l ih =>
    intro mc
    rw [List.foldlM_cons, List.foldlM_cons, h mc b]
    rcases step [] b with e | x
    · rfl
    · show l.foldlM step (mc ++ x) = Except.map _ (l.foldlM step x)
      rw [ih (mc ++ x), ih x]
      rcases l.foldlM step [] with e | y
      · rfl
      · show Except.ok (mc ++ x ++ y) = Except.ok (mc ++ (x ++ y)); rw [List.append_assoc]

theorem appends_groupStage (edit : Dict Key (Row α) → Key → Except PyErr (Dict Key (Row α))) (ws : List PName) (rec : CompRec α) (h : Appends rec) : Appends (groupStage edit ws rec) := by
  intro p mc
  have hs : ∀ mc g, groupStep edit ws rec p mc g = (groupStep edit ws rec p [] g).map (mc ++ ·) := by
    intro mc g
    unfold groupStep
    rcases g.mapM (fun n => anyFree p.vec (planetKeys ws n)) with e | free
    · rfl
    · simp only [bind, Except.bind]
      split
      · rcases (g.flatMap (planetKeys ws)).foldlM edit p.vec with e | v
        · rfl
        · simp only []
          rw [h _ mc]
          rcases rec _ [] with e | x <;> rfl
      · show Except.ok mc = Except.ok (mc ++ []); simp
  unfold groupStage
  rw [foldlM_appends _ hs (planetGroups p.nplanets) mc]
  rcases (planetGroups p.nplanets).foldlM (groupStep edit ws rec p) [] with e | l
  · rfl
  · show (rec p.relist (mc ++ l) >>= _) = Except.map _ (rec p.relist l >>= _)
    rw [h _ (mc ++ l), h _ l]
    rcases rec p.relist [] with e | x
    · rfl
    · show Except.ok (mc ++ l ++ x.1, p) = Except.ok (mc ++ (l ++ x.1), p); rw [List.append_assoc]

theorem appends_trendStage (c : CompConsts α) (rec : CompRec α) (h : Appends rec) : Appends (trendStage c rec) := by
  have hs : ∀ (acc : CPost α × List (CompEntry α)) k, trendStep c rec acc k = (trendStep c rec (acc.1, []) k).map fun x => (x.1, acc.2 ++ x.2) := by
    intro acc k
    unfold trendStep
    simp only [bind, Except.bind]
    rcases getFlag acc.1.vec k with e | b
    · rfl
    · simp only []
      split
      · rcases putValue acc.1.vec k c.zero with e | v
        · rfl
        · simp only []
          rw [h _ acc.2]
          rcases rec _ [] with e | x
          · rfl
          · simp only [Except.map]
            rcases clearFlag v k with e | v' <;> rfl
      · show Except.ok acc = Except.ok (acc.1, acc.2 ++ []); simp
  have hf : ∀ (ks : List Key) (acc : CPost α × List (CompEntry α)), ks.foldlM (trendStep c rec) acc = (ks.foldlM (trendStep c rec) (acc.1, [])).map fun x => (x.1, acc.2 ++ x.2) := by
    intro ks
    induction ks with
    | nil => intro acc; show Except.ok acc = Except.ok (acc.1, acc.2 ++ []); simp
    | cons k ks ih =>
      intro acc
      rw [List.foldlM_cons, List.foldlM_cons, hs acc k]
      rcases trendStep c rec (acc.1, []) k with e | x
      · rfl
      · show ks.foldlM (trendStep c rec) (x.1, acc.2 ++ x.2) = Except.map _ (ks.foldlM (trendStep c rec) x)
        rw [ih (x.1, acc.2 ++ x.2), ih x]
        rcases ks.foldlM (trendStep c rec) (x.1, []) with e | y
        · rfl
        · show Except.ok (y.1, acc.2 ++ x.2 ++ y.2) = Except.ok (y.1, acc.2 ++ (x.2 ++ y.2)); rw [List.append_assoc]
  intro p mc
  unfold trendStage
  rw [hf _ (p, mc)]
  rcases [Key.curv, Key.dvdt].foldlM (trendStep c rec) (p, []) with e | x
  · rfl
  · show (rec x.1.relist (mc ++ x.2) >>= _) = Except.map _ (rec x.1.relist x.2 >>= _)
    rw [h _ (mc ++ x.2), h _ x.2]
    rcases rec x.1.relist [] with e | y
    · rfl
    · show Except.ok (mc ++ x.2 ++ y.1, p) = Except.ok (mc ++ (x.2 ++ y.1), p); rw [List.append_assoc]

theorem appends_jitStage (c : CompConsts α) (rec : CompRec α) (h : Appends rec) : Appends (jitStage c rec) := by
  intro p mc
  unfold jitStage
  simp only [bind, Except.bind]
  split
  · rw [h _ mc]
    rcases rec _ [] with e | x
    · rfl
    · simp only [Except.map]
      rw [h _ (mc ++ x.1), h _ x.1]
      rcases rec p.relist [] with e | y
      · rfl
      · show Except.ok (mc ++ x.1 ++ y.1, p) = Except.ok (mc ++ (x.1 ++ y.1), p); rw [List.append_assoc]
  · rw [h _ mc]
    rcases rec p.relist [] with e | y <;> rfl

theorem appends_gpStage (c : CompConsts α) (rec : CompRec α) (h : Appends rec) : Appends (gpStage c rec) := by
  intro p mc
  unfold gpStage
  split
  · simp only [bind, Except.bind]
    rcases p.hnames.foldlM (gpStep c) p.vec with e | v
    · rfl
    · simp only []
      rw [h _ mc]
      rcases rec _ [] with e | x
      · rfl
      · simp only [Except.map]
        rw [h _ (mc ++ x.1), h _ x.1]
        rcases rec p.relist [] with e | y
        · rfl
        · show Except.ok (mc ++ x.1 ++ y.1, y.2) = Except.ok (mc ++ (x.1 ++ y.1), y.2); rw [List.append_assoc]
  · exact h _ mc

theorem modelComp_appends (c : CompConsts α) (opt : Dict Key (Row α) → List Nat → Nat → α) (params : List Comp) : Appends (modelComp c opt params) := by
  induction hn : params.length using Nat.strongRecOn generalizing params with
  | _ n ih =>
    intro p mc
    have hrec : ∀ x, x ∈ params → Appends (modelComp c opt (without x params)) := fun x hx => ih _ (hn ▸ without_length hx) _ rfl
    unfold modelComp
    split
    · rcases leafComp opt p with e | r <;> rfl
    split
    · rename_i h; exact appends_gpStage c _ (hrec _ h) p mc
    split
    · rename_i h; exact appends_jitStage c _ (hrec _ h) p mc
    split
    · rename_i h; exact appends_trendStage c _ (hrec _ h) p mc
    split
    · rename_i h
      unfold planetStage
      simp only [bind, Except.bind]
      rcases p.basis.eparams with e | es
      · rfl
      simp only []
      rcases p.basis.circparams with e | cs
      · rfl
      exact appends_groupStage _ _ _ (hrec _ h) p mc
    split
    · rename_i h
      unfold eStage
      simp only [bind, Except.bind]
      rcases p.basis.eparams with e | es
      · rfl
      exact appends_groupStage _ _ _ (hrec _ h) p mc
    · rfl

theorem modelComp_grows (c : CompConsts α) (opt : Dict Key (Row α) → List Nat → Nat → α) (params : List Comp) : Grows (modelComp c opt params) := by
  induction hn : params.length using Nat.strongRecOn generalizing params with
  | _ n ih =>
    intro p mc r h
    have hg : ∀ x, x ∈ params → Grows (modelComp c opt (without x params)) := fun x hx => ih _ (hn ▸ without_length hx) _ rfl
    have ha : ∀ x, Appends (modelComp c opt (without x params)) := fun x => modelComp_appends c opt _
    have hlast : ∀ (rec : CompRec α), Grows rec → Appends rec → ∀ (q : CPost α) (mc' : List (CompEntry α)) r, mc.length ≤ mc'.length → rec q mc' = .ok r → mc.length < r.1.length :=
      fun rec h1 _ q mc' r hle h => Nat.lt_of_le_of_lt hle (h1 _ _ _ h)
    have hgroup : ∀ edit ws (rec : CompRec α), Grows rec → Appends rec → ∀ r, groupStage edit ws rec p mc = .ok r → mc.length < r.1.length := by
      intro edit ws rec h1 h2 r h
      rw [appends_groupStage edit ws rec h2 p mc] at h
      rcases hr : groupStage edit ws rec p [] with e | x
      · rw [hr] at h; cases h
      · rw [hr] at h; cases h
        unfold groupStage at hr
        rcases hf : (planetGroups p.nplanets).foldlM (groupStep edit ws rec p) [] with e | l
        · rw [hf] at hr; cases hr
        · rw [hf] at hr
          change (rec p.relist l >>= _) = _ at hr
          rcases hl : rec p.relist l with e | y
          · rw [hl] at hr; cases hr
          · rw [hl] at hr; cases hr
            have := h1 _ _ _ hl
            show mc.length < (mc ++ y.1).length
            rw [List.length_append]; omega
    unfold modelComp at h
    split at h
    · rcases hl : leafComp opt p with e | x
      · rw [hl] at h; cases h
      · rw [hl] at h; cases h; simp
    split at h
    · rename_i hx
      unfold gpStage at h
      split at h
      · simp only [bind, Except.bind] at h
        rcases hv : p.hnames.foldlM (gpStep c) p.vec with e | v
        · rw [hv] at h; cases h
        · rw [hv] at h
          simp only [] at h
          rcases h1 : modelComp c opt (without .gp params) { p with vec := v } mc with e | x
          · rw [h1] at h; cases h
          · rw [h1] at h
            exact Nat.lt_trans (hg _ hx _ _ _ h1) (hg _ hx _ _ _ h)
      · exact hg _ hx _ _ _ h
    split at h
    · rename_i hx
      unfold jitStage at h
      simp only [bind, Except.bind] at h
      have hend : ∀ l : List (CompEntry α), mc.length ≤ l.length → (modelComp c opt (without .jit params) p.relist l >>= fun v => Except.ok (v.1, p)) = .ok r → mc.length < r.1.length := by
        intro l hle h
        rcases h2 : modelComp c opt (without .jit params) p.relist l with e | y
        · rw [h2] at h; cases h
        · rw [h2] at h; cases h
          exact Nat.lt_of_le_of_lt hle (hg _ hx _ _ y h2)
      split at h
      · rcases h1 : modelComp c opt (without .jit params) _ mc with e | x
        · rw [h1] at h; cases h
        · rw [h1] at h
          exact hend x.1 (Nat.le_of_lt (hg _ hx _ _ _ h1)) h
      · exact hend mc (Nat.le_refl _) h
    split at h
    · rename_i hx
      rw [appends_trendStage c _ (ha _) p mc] at h
      rcases hr : trendStage c (modelComp c opt (without .trend params)) p [] with e | x
      · rw [hr] at h; cases h
      · rw [hr] at h; cases h
        unfold trendStage at hr
        rcases hf : [Key.curv, Key.dvdt].foldlM (trendStep c (modelComp c opt (without .trend params))) (p, []) with e | l
        · rw [hf] at hr; cases hr
        · rw [hf] at hr
          change (modelComp c opt (without .trend params) l.1.relist l.2 >>= _) = _ at hr
          rcases hl : modelComp c opt (without .trend params) l.1.relist l.2 with e | y
          · rw [hl] at hr; cases hr
          · rw [hl] at hr; cases hr
            have := hg _ hx _ _ _ hl
            show mc.length < (mc ++ y.1).length
            rw [List.length_append]; omega
    split at h
    · rename_i hx
      unfold planetStage at h
      simp only [bind, Except.bind] at h
      rcases he : p.basis.eparams with e | es
      · rw [he] at h; cases h
      rw [he] at h; simp only [] at h
      rcases hc : p.basis.circparams with e | cs
      · rw [hc] at h; cases h
      rw [hc] at h
      exact hgroup _ _ _ (hg _ hx) (ha _) r h
    split at h
    · rename_i hx
      unfold eStage at h
      simp only [bind, Except.bind] at h
      rcases he : p.basis.eparams with e | es
      · rw [he] at h; cases h
      rw [he] at h
      exact hgroup _ _ _ (hg _ hx) (ha _) r h
    · cases h

/-- C71 with an explicit list: the result is the given list followed by new entries which depend only on the comparison and the posterior, never on the list given nor on earlier calls. -/
theorem C71_explicit_partial (c : CompConsts α) (opt : Dict Key (Row α) → List Nat → Nat → α) (params : List Comp) (p : CPost α) :
    ∃ new : Except PyErr (List (CompEntry α) × CPost α), (∀ r, new = .ok r → r.1 ≠ []) ∧
      ∀ store mc, (modelCompCall c opt store params (some mc) p).map (fun r => (r.1, r.2.1)) = new.map fun r => (mc ++ r.1, r.2) := by
  refine ⟨modelComp c opt params p [], ?_, ?_⟩
  · intro r h hr
    have := modelComp_grows c opt params p [] r h
    rw [hr] at this
    exact Nat.lt_irrefl _ this
  · intro store mc
    unfold modelCompCall
    simp only []
    rw [modelComp_appends c opt params p mc]
    rcases modelComp c opt params p [] with e | r <;> rfl

/-- C71 is false whenever `mc_list` is left out: a second identical call returns the entries of the first call as well, so that its result is twice as long. -/
theorem C71_violated (c : CompConsts α) (opt : Dict Key (Row α) → List Nat → Nat → α) (params : List Comp) (p : CPost α) (r : List (CompEntry α)) (q : CPost α) (store : List (CompEntry α))
    (h : modelCompCall c opt [] params none p = .ok (r, q, store)) : modelCompCall c opt store params none p = .ok (r ++ r, q, r ++ r) ∧ r ++ r ≠ r := by
  unfold modelCompCall at h ⊢
  simp only [] at h ⊢
  rcases hm : modelComp c opt params p [] with e | x
  · rw [hm] at h; cases h
  · rw [hm] at h
    cases h
    have hne := modelComp_grows c opt params p [] x hm
    rw [modelComp_appends c opt params p x.1, hm]
    refine ⟨rfl, fun h => ?_⟩
    have := congrArg List.length h
    rw [List.length_append] at this
    simp only [List.length_nil] at hne
    omega

/-- Non-vacuity of `C71_violated`. -/
example : ∃ r, modelCompCall ⟨0, -1, 0⟩ (fun _ _ _ => (7 : Int)) [] [] none twoPlanets = .ok r := by
  unfold modelCompCall
  simp only [modelComp_nil]
  exact ⟨_, rfl⟩

/-! ## C72 -/

theorem labelStep_congr {α β : Type} (ci ec : PName) (acc : List FreeLabel × Bool) (x : Key × Row α) (y : Key × Row β) (h : (x.1, x.2.vary) = (y.1, y.2.vary)) : labelStep ci ec acc x = labelStep ci ec acc y := by
  simp only [Prod.mk.injEq] at h
  unfold labelStep
  rw [h.1, h.2]

theorem freeLabels_congr (b : BasisName) : ∀ (v w : Dict Key (Row α)), v.map (fun x => (x.1, x.2.vary)) = w.map (fun x => (x.1, x.2.vary)) → freeLabels b v = freeLabels b w := by
  intro v w h
  have : ∀ ci ec acc, v.foldlM (labelStep ci ec) acc = w.foldlM (labelStep ci ec) acc := by
    intro ci ec
    induction v generalizing w with
    | nil => cases w with
      | nil => intro acc; rfl
      | cons y w => cases h
    | cons x v ih => cases w with
      | nil => cases h
      | cons y w =>
        intro acc
        simp only [List.map_cons, List.cons.injEq] at h
        rw [List.foldlM_cons, List.foldlM_cons, labelStep_congr ci ec acc x y h.1]
        rcases labelStep ci ec acc y with e | a
        · rfl
        · exact ih w h.2 a
  unfold freeLabels
  simp only [this]

theorem freeRows_flags {v w : Dict Key (Row α)} (h : v.map (fun x => (x.1, x.2.vary)) = w.map (fun x => (x.1, x.2.vary))) : freeRows (v.map Prod.snd) = freeRows (w.map Prod.snd) := by
  have hl : v.length = w.length := by simpa using congrArg List.length h
  unfold freeRows
  simp only [List.length_map, hl]
  apply List.filter_congr
  intro i _
  have := congrArg (fun l => l[i]?) h
  simp only [List.getElem?_map] at this
  rw [List.getElem?_map, List.getElem?_map]
  rcases hv : v[i]? with _ | x <;> rcases hw : w[i]? with _ | y <;> rw [hv, hw] at this <;> simp_all

theorem set_flags (v : Dict Key (Row α)) (k : Key) (r r' : Row α) (h : v.get? k = some r) (hr : r'.vary = r.vary) : (v.set k r').map (fun x => (x.1, x.2.vary)) = v.map (fun x => (x.1, x.2.vary)) := by
  induction v with
  | nil => cases h
  | cons x v ih =>
    obtain ⟨a, b⟩ := x
    by_cases ha : a = k
    · subst ha
      have : b = r := by simpa [Dict.get?] using h
      subst this
      simp [Dict.set, hr]
    · have : Dict.get? v k = some r := by simpa [Dict.get?, ha] using h
      simp [Dict.set, ha]
      simpa using ih this

theorem putValue_flags {v v' : Dict Key (Row α)} {k : Key} {x : α} (h : putValue v k x = .ok v') : v'.map (fun x => (x.1, x.2.vary)) = v.map (fun x => (x.1, x.2.vary)) := by
  unfold putValue at h
  rcases hr : v.get? k with _ | r
  · rw [hr] at h; cases h
  · rw [hr] at h; cases h
    exact set_flags v k r _ hr rfl

theorem gpStep_inv (c : CompConsts α) {v v' : Dict Key (Row α)} {k : Key} (h : gpStep c v k = .ok v') :
    ∃ w, (("gp_amp".toList.isPrefixOf k.render = true ∧ putValue v k c.zero = .ok w) ∨ ("gp_amp".toList.isPrefixOf k.render ≠ true ∧ w = v)) ∧ (putValue w k c.zero = .ok v' ∨ v' = w) := by
  have hrest : ∀ w, (getFlag w k >>= fun free => if free then putValue w k c.zero else Except.ok w) = .ok v' → (putValue w k c.zero = .ok v' ∨ v' = w) := by
    intro w h
    rcases hf : getFlag w k with e | b
    · rw [hf] at h; cases h
    · rw [hf] at h
      change (if b then putValue w k c.zero else Except.ok w) = _ at h
      split at h
      · exact Or.inl h
      · cases h; exact Or.inr rfl
  unfold gpStep at h
  split at h
  · rename_i hamp
    rcases hp : putValue v k c.zero with e | w
    · rw [hp] at h; cases h
    · rw [hp] at h
      exact ⟨w, Or.inl ⟨hamp, rfl⟩, hrest w h⟩
  · rename_i hamp
    exact ⟨v, Or.inr ⟨hamp, rfl⟩, hrest v h⟩

theorem gpStep_flags (c : CompConsts α) {v v' : Dict Key (Row α)} {k : Key} (h : gpStep c v k = .ok v') : v'.map (fun x => (x.1, x.2.vary)) = v.map (fun x => (x.1, x.2.vary)) := by
  obtain ⟨w, h1, h2⟩ := gpStep_inv c h
  have h1' : w.map (fun x => (x.1, x.2.vary)) = v.map (fun x => (x.1, x.2.vary)) := by
    rcases h1 with ⟨_, h1⟩ | ⟨_, rfl⟩
    · exact putValue_flags h1
    · rfl
  rcases h2 with h2 | rfl
  · exact (putValue_flags h2).trans h1'
  · exact h1'

theorem gpFold_flags (c : CompConsts α) : ∀ (ks : List Key) (v v' : Dict Key (Row α)), ks.foldlM (gpStep c) v = .ok v' → v'.map (fun x => (x.1, x.2.vary)) = v.map (fun x => (x.1, x.2.vary)) := by
  intro ks
  induction ks with
  | nil => intro v v' h; cases h; rfl
  | cons k ks ih =>
    intro v v' h
    rw [List.foldlM_cons] at h
    rcases hs : gpStep c v k with e | w
    · rw [hs] at h; cases h
    · rw [hs] at h
      exact (ih w v' h).trans (gpStep_flags c hs)

theorem fitPost_flags (opt : Dict Key (Row α) → List Nat → Nat → α) (p : CPost α) : (fitPost opt p).vec.map (fun x => (x.1, x.2.vary)) = p.vec.map (fun x => (x.1, x.2.vary)) := by
  unfold fitPost
  simp only [List.map_map]
  apply List.ext_getElem?
  intro i
  simp only [List.getElem?_map, List.getElem?_zipIdx]
  rcases p.vec[i]? with _ | x
  · rfl
  · simp only [Option.map_some, Function.comp]
    congr 2
    split <;> rfl

/-- C72 is false for every posterior with a GP amplitude: the model labelled as the one without the GP has the same free parameters, the same labels and the same parameter counts as the one with the GP. -/
theorem C72_violated (c : CompConsts α) (opt : Dict Key (Row α) → List Nat → Nat → α) (p q : CPost α) (hp : FreshCaches p) (hgp : ∃ k ∈ p.vec.keys, isInfix "gp_amp".toList k.render = true)
    (mc r : List (CompEntry α)) (h : modelComp c opt [.gp] p mc = .ok (r, q)) :
    ∃ a b, r = mc ++ [a, b] ∧ a.labels = b.labels ∧ a.nfree = b.nfree ∧ a.nlike = b.nlike ∧ a.vec.map (fun x => (x.1, x.2.vary)) = b.vec.map (fun x => (x.1, x.2.vary)) ∧
      b.vec.map (fun x => (x.1, x.2.vary)) = p.vec.map (fun x => (x.1, x.2.vary)) := by
  rw [modelComp_gp] at h
  unfold gpStage at h
  rw [if_pos (by rw [List.any_eq_true]; exact hgp)] at h
  rcases hv : p.hnames.foldlM (gpStep c) p.vec with e | v
  · rw [hv] at h; cases h
  rw [hv] at h
  change (modelComp c opt [] { p with vec := v } mc >>= _) = _ at h
  have hfl := gpFold_flags c _ _ _ hv
  have hrows := freeRows_flags hfl
  rw [modelComp_nil] at h
  rcases h1 : leafComp opt { p with vec := v } with e | x
  · rw [h1] at h; cases h
  rw [h1] at h
  change modelComp c opt [] p.relist (mc ++ [x.1]) = _ at h
  rw [modelComp_nil] at h
  rcases h2 : leafComp opt p.relist with e | y
  · rw [h2] at h; cases h
  rw [h2] at h
  cases h
  have hfresh : FreshCaches { p with vec := v } := ⟨by show p.likeCache = _; rw [hp.1, hrows], by show p.postCache = _; rw [hp.2, hrows]⟩
  have e1 := C70_entry opt _ hfresh x.1 x.2 h1
  have e2 := C70_entry opt _ (relist_fresh p) y.1 y.2 h2
  have hcount : ∀ (v w : Dict Key (Row α)), v.map (fun x => (x.1, x.2.vary)) = w.map (fun x => (x.1, x.2.vary)) → (v.filter fun kr => kr.2.vary).length = (w.filter fun kr => kr.2.vary).length := by
    intro v w h
    have := congrArg (fun l => (l.filter fun (x : Key × Bool) => x.2).length) h
    simpa [List.filter_map, Function.comp_def] using this
  have f1 : x.1.vec.map (fun x => (x.1, x.2.vary)) = p.vec.map (fun x => (x.1, x.2.vary)) ∧ freeLabels p.basis x.1.vec = .ok x.1.labels := by
    unfold leafComp at h1
    simp only [bind, Except.bind] at h1
    rcases hl : freeLabels (fitPost opt { p with vec := v }).basis (fitPost opt { p with vec := v }).vec with e | l
    · rw [hl] at h1; cases h1
    · rw [hl] at h1; cases h1
      exact ⟨(fitPost_flags opt _).trans hfl, hl⟩
  have f2 : y.1.vec.map (fun x => (x.1, x.2.vary)) = p.vec.map (fun x => (x.1, x.2.vary)) ∧ freeLabels p.basis y.1.vec = .ok y.1.labels := by
    unfold leafComp at h2
    simp only [bind, Except.bind] at h2
    rcases hl : freeLabels (fitPost opt p.relist).basis (fitPost opt p.relist).vec with e | l
    · rw [hl] at h2; cases h2
    · rw [hl] at h2; cases h2
      exact ⟨fitPost_flags opt _, hl⟩
  refine ⟨x.1, y.1, by simp, ?_, ?_, ?_, f1.1.trans f2.1.symm, f2.1⟩
  · have := freeLabels_congr p.basis _ _ (f1.1.trans f2.1.symm)
    rw [f1.2, f2.2] at this
    exact Except.ok.inj this
  · rw [e1.2.2.1, e2.2.2.1]; exact hcount _ _ hfl
  · rw [e1.2.2.2, e2.2.2.2]; exact hcount _ _ hfl

theorem gpFold_zero (c : CompConsts α) (k : Key) (hk : "gp_amp".toList.isPrefixOf k.render = true) : ∀ (ks : List Key) (v v' : Dict Key (Row α)), ks.foldlM (gpStep c) v = .ok v' →
    (k ∈ ks ∨ ∃ r, v.get? k = some r ∧ r.value = c.zero) → ∃ r, v'.get? k = some r ∧ r.value = c.zero := by
  have hput : ∀ (v v' : Dict Key (Row α)) (k' : Key), putValue v k' c.zero = .ok v' → (k' = k ∨ ∃ r, v.get? k = some r ∧ r.value = c.zero) → ∃ r, v'.get? k = some r ∧ r.value = c.zero := by
    intro v v' k' h hor
    unfold putValue at h
    rcases hr : v.get? k' with _ | r
    · rw [hr] at h; cases h
    · rw [hr] at h; cases h
      by_cases hkk : k' = k
      · subst hkk; exact ⟨_, Dict.get?_set_self _ _ _, rfl⟩
      · rw [Dict.get?_set_ne _ _ hkk]
        exact hor.resolve_left hkk
  intro ks
  induction ks with
  | nil =>
    intro v v' h hor
    cases h
    exact hor.resolve_left (by simp)
  | cons a ks ih =>
    intro v v' h hor
    rw [List.foldlM_cons] at h
    rcases hs : gpStep c v a with e | w
    · rw [hs] at h; cases h
    · rw [hs] at h
      refine ih w v' h ?_
      by_cases hks : k ∈ ks
      · exact Or.inl hks
      right
      obtain ⟨u, hu, hw⟩ := gpStep_inv c hs
      have hu' : (∃ r, u.get? k = some r ∧ r.value = c.zero) := by
        by_cases hak : a = k
        · subst hak
          rcases hu with ⟨_, hu⟩ | ⟨hu, _⟩
          · exact hput _ _ _ hu (Or.inl rfl)
          · exact absurd hk hu
        · have hz : ∃ r, v.get? k = some r ∧ r.value = c.zero := by
            rcases hor with h1 | h1
            · rcases List.mem_cons.1 h1 with h2 | h2
              · exact absurd h2.symm hak
              · exact absurd h2 hks
            · exact h1
          rcases hu with ⟨_, hu⟩ | ⟨_, rfl⟩
          · exact hput _ _ _ hu (Or.inr hz)
          · exact hz
      rcases hw with hw | rfl
      · exact hput _ _ _ hw (Or.inr hu')
      · exact hu'

/-- C72 for hyperparameters that the user has fixed: if an amplitude of the GP is fixed then it is zero in the reduced model. Missing from C72: free hyperparameters, see `C72_violated`. -/
theorem C72_fixed_partial (c : CompConsts α) (opt : Dict Key (Row α) → List Nat → Nat → α) (p q : CPost α) (hp : FreshCaches p) (hn : p.vec.keys.Nodup) (k : Key) (hk : k ∈ p.hnames)
    (hamp : "gp_amp".toList.isPrefixOf k.render = true) (hfix : ∀ r, p.vec.get? k = some r → r.vary = false) (hgp : ∃ k ∈ p.vec.keys, isInfix "gp_amp".toList k.render = true)
    (mc r : List (CompEntry α)) (h : modelComp c opt [.gp] p mc = .ok (r, q)) :
    ∃ a b, r = mc ++ [a, b] ∧ ∃ row, a.vec.get? k = some row ∧ row.value = c.zero := by
  rw [modelComp_gp] at h
  unfold gpStage at h
  rw [if_pos (by rw [List.any_eq_true]; exact hgp)] at h
  rcases hv : p.hnames.foldlM (gpStep c) p.vec with e | v
  · rw [hv] at h; cases h
  rw [hv] at h
  change (modelComp c opt [] { p with vec := v } mc >>= _) = _ at h
  have hfl := gpFold_flags c _ _ _ hv
  have hrows := freeRows_flags hfl
  rw [modelComp_nil] at h
  rcases h1 : leafComp opt { p with vec := v } with e | x
  · rw [h1] at h; cases h
  rw [h1] at h
  change modelComp c opt [] p.relist (mc ++ [x.1]) = _ at h
  rw [modelComp_nil] at h
  rcases h2 : leafComp opt p.relist with e | y
  · rw [h2] at h; cases h
  rw [h2] at h
  cases h
  have hfresh : FreshCaches { p with vec := v } := ⟨by show p.likeCache = _; rw [hp.1, hrows], by show p.postCache = _; rw [hp.2, hrows]⟩
  obtain ⟨row, hrow, hz⟩ := gpFold_zero c k hamp _ _ _ hv (Or.inl hk)
  obtain ⟨hlen, hent, _, _⟩ := C70_entry opt _ hfresh x.1 x.2 h1
  have hkeys : Dict.keys v = p.vec.keys := by
    have := congrArg (List.map Prod.fst) hfl
    simpa [Dict.keys, List.map_map, Function.comp_def] using this
  have hvary : row.vary = false := by
    have hm := Dict.mem_of_get? _ hrow
    have : (k, row.vary) ∈ p.vec.map (fun x => (x.1, x.2.vary)) := by
      rw [← hfl]; exact List.mem_map.2 ⟨_, hm, rfl⟩
    obtain ⟨⟨k', r'⟩, hm', he⟩ := List.mem_map.1 this
    simp only [Prod.mk.injEq] at he
    obtain ⟨rfl, he⟩ := he
    rw [← he]
    exact hfix r' (Dict.get?_of_mem_nodup _ hn hm')
  refine ⟨x.1, y.1, by simp, row, ?_, hz⟩
  obtain ⟨i, hi⟩ := List.mem_iff_getElem?.1 (Dict.mem_of_get? _ hrow)
  obtain ⟨r', h3, h4, h5⟩ := hent i k row hi
  have hr' : r' = row := h5 hvary
  subst hr'
  apply Dict.get?_of_mem_nodup
  · have : Dict.keys x.1.vec = Dict.keys v := by
      apply List.ext_getElem?
      intro j
      simp only [Dict.keys, List.getElem?_map]
      rcases hj : (v : List _)[j]? with _ | kr
      · have : x.1.vec.length ≤ j := by rw [hlen]; exact List.getElem?_eq_none_iff.1 hj
        rw [List.getElem?_eq_none_iff.2 this]
      · obtain ⟨r'', h6, _⟩ := hent j kr.1 kr.2 hj
        rw [h6]; rfl
    rw [this, hkeys]; exact hn
  · exact List.mem_iff_getElem?.2 ⟨i, h3⟩

/-! ## C73 -/

/-- The posterior without the flags of its parameter dictionary. -/
def stripDict (p : CPost α) : CPost α := { p with dictVary := [] }

/-- The comparison does not look at the flags in the parameter dictionary. -/
def IgnoresDict (rec : CompRec α) : Prop := ∀ p d mc, (rec { p with dictVary := d } mc).map (fun x => (x.1, stripDict x.2)) = (rec p mc).map (fun x => (x.1, stripDict x.2))

theorem IgnoresDict.fst {rec : CompRec α} (h : IgnoresDict rec) (p : CPost α) (d : Dict Key Bool) (mc : List (CompEntry α)) :
    (rec { p with dictVary := d } mc).map Prod.fst = (rec p mc).map Prod.fst := by
  have := congrArg (fun x => x.map Prod.fst) (h p d mc)
  rcases h1 : rec { p with dictVary := d } mc with e | x <;> rcases h2 : rec p mc with e' | x' <;> rw [h1, h2] at this
  · exact this
  · cases this
  · cases this
  · exact this

theorem bind_fst {β : Type} (m m' : Except PyErr (List (CompEntry α) × CPost α)) (h : m.map Prod.fst = m'.map Prod.fst) (f : List (CompEntry α) → Except PyErr β) :
    (m >>= fun r => f r.1) = (m' >>= fun r => f r.1) := by
  rcases m with e | x <;> rcases m' with e' | x'
  · cases h; rfl
  · cases h
  · cases h
  · have : x.1 = x'.1 := Except.ok.inj h
    show f x.1 = f x'.1
    rw [this]

theorem ignores_groupStage (edit : Dict Key (Row α) → Key → Except PyErr (Dict Key (Row α))) (ws : List PName) (rec : CompRec α) (h : IgnoresDict rec) : IgnoresDict (groupStage edit ws rec) := by
  intro p d mc
  have hs : ∀ mc g, groupStep edit ws rec { p with dictVary := d } mc g = groupStep edit ws rec p mc g := by
    intro mc g
    unfold groupStep
    simp only []
    rcases g.mapM (fun n => anyFree p.vec (planetKeys ws n)) with e | free
    · rfl
    · simp only [bind, Except.bind]
      split
      · rcases (g.flatMap (planetKeys ws)).foldlM edit p.vec with e | v
        · rfl
        · exact bind_fst _ _ (h.fst ({ p with vec := v } : CPost α).relist d mc) (fun l => .ok l)
      · rfl
  have hs' : groupStep edit ws rec { p with dictVary := d } = groupStep edit ws rec p := by funext mc g; exact hs mc g
  unfold groupStage
  rw [hs']
  show Except.map _ ((planetGroups p.nplanets).foldlM (groupStep edit ws rec p) mc >>= _) = Except.map _ ((planetGroups p.nplanets).foldlM (groupStep edit ws rec p) mc >>= _)
  rcases (planetGroups p.nplanets).foldlM (groupStep edit ws rec p) mc with e | l
  · rfl
  · have := h.fst p.relist d l
    show Except.map _ (rec ({ p with dictVary := d } : CPost α).relist l >>= _) = Except.map _ (rec p.relist l >>= _)
    rw [show ({ p with dictVary := d } : CPost α).relist = { p.relist with dictVary := d } from rfl]
    rcases h1 : rec { p.relist with dictVary := d } l with e | x <;> rcases h2 : rec p.relist l with e' | x' <;> rw [h1, h2] at this
    · cases this; rfl
    · cases this
    · cases this
    · have hx : x.1 = x'.1 := Except.ok.inj this
      show Except.ok (x.1, stripDict { p with dictVary := d }) = Except.ok (x'.1, stripDict p)
      rw [hx]; rfl

theorem ignores_trendStage (c : CompConsts α) (rec : CompRec α) (h : IgnoresDict rec) : IgnoresDict (trendStage c rec) := by
  have hs : ∀ (p : CPost α) d mc k, (trendStep c rec ({ p with dictVary := d }, mc) k) = (trendStep c rec (p, mc) k).map fun x => ({ x.1 with dictVary := d }, x.2) := by
    intro p d mc k
    unfold trendStep
    simp only [bind, Except.bind]
    rcases getFlag p.vec k with e | b
    · rfl
    · simp only []
      split
      · rcases putValue p.vec k c.zero with e | v
        · rfl
        · simp only []
          have := h.fst ({ p with vec := v } : CPost α).relist d mc
          rw [show ({ vec := v, dictVary := d, likeCache := p.likeCache, postCache := p.postCache, basis := p.basis, nplanets := p.nplanets, hnames := p.hnames } : CPost α).relist =
            { ({ p with vec := v } : CPost α).relist with dictVary := d } from rfl]
          rcases h1 : rec { ({ p with vec := v } : CPost α).relist with dictVary := d } mc with e | x <;> rcases h2 : rec ({ p with vec := v } : CPost α).relist mc with e' | x' <;> rw [h1, h2] at this
          · cases this; rfl
          · cases this
          · cases this
          · have hx : x.1 = x'.1 := Except.ok.inj this
            simp only []
            rcases clearFlag v k with e | v'
            · rfl
            · show Except.ok (_, x.1) = Except.ok (_, x'.1)
              rw [hx]
      · rfl
  have hf : ∀ (ks : List Key) (p : CPost α) d mc, ks.foldlM (trendStep c rec) ({ p with dictVary := d }, mc) = (ks.foldlM (trendStep c rec) (p, mc)).map fun x => ({ x.1 with dictVary := d }, x.2) := by
    intro ks
    induction ks with
    | nil => intro p d mc; rfl
    | cons k ks ih =>
      intro p d mc
      rw [List.foldlM_cons, List.foldlM_cons, hs]
      rcases trendStep c rec (p, mc) k with e | x
      · rfl
      · exact ih x.1 d x.2
  intro p d mc
  unfold trendStage
  rw [hf]
  rcases [Key.curv, Key.dvdt].foldlM (trendStep c rec) (p, mc) with e | x
  · rfl
  · have := h.fst x.1.relist d x.2
    show Except.map _ (rec ({ x.1 with dictVary := d } : CPost α).relist x.2 >>= _) = Except.map _ (rec x.1.relist x.2 >>= _)
    rw [show ({ x.1 with dictVary := d } : CPost α).relist = { x.1.relist with dictVary := d } from rfl]
    rcases h1 : rec { x.1.relist with dictVary := d } x.2 with e | y <;> rcases h2 : rec x.1.relist x.2 with e' | y' <;> rw [h1, h2] at this
    · cases this; rfl
    · cases this
    · cases this
    · have hx : y.1 = y'.1 := Except.ok.inj this
      show Except.ok (y.1, stripDict { p with dictVary := d }) = Except.ok (y'.1, stripDict p)
      rw [hx]; rfl

theorem ignores_last (rec : CompRec α) (h : IgnoresDict rec) (p : CPost α) (d : Dict Key Bool) (l : List (CompEntry α)) :
    Except.map (fun x : List (CompEntry α) × CPost α => (x.1, stripDict x.2)) (rec ({ p with dictVary := d } : CPost α).relist l >>= fun r => Except.ok (r.1, ({ p with dictVary := d } : CPost α))) =
      Except.map (fun x => (x.1, stripDict x.2)) (rec p.relist l >>= fun r => Except.ok (r.1, p)) := by
  have := h.fst p.relist d l
  rw [show ({ p with dictVary := d } : CPost α).relist = { p.relist with dictVary := d } from rfl]
  rcases h1 : rec { p.relist with dictVary := d } l with e | x <;> rcases h2 : rec p.relist l with e' | x' <;> rw [h1, h2] at this
  · cases this; rfl
  · cases this
  · cases this
  · have hx : x.1 = x'.1 := Except.ok.inj this
    show Except.ok (x.1, stripDict { p with dictVary := d }) = Except.ok (x'.1, stripDict p)
    rw [hx]; rfl

theorem ignores_jitStage (c : CompConsts α) (rec : CompRec α) (h : IgnoresDict rec) : IgnoresDict (jitStage c rec) := by
  intro p d mc
  unfold jitStage
  simp only []
  split
  · have := h.fst (jitterless c.tiny p).relist d mc
    rcases h1 : rec { (jitterless c.tiny p).relist with dictVary := d } mc with e | x <;> rcases h2 : rec (jitterless c.tiny p).relist mc with e' | x' <;> rw [h1, h2] at this
    · cases this
      show Except.map _ (Except.map Prod.fst (rec { (jitterless c.tiny p).relist with dictVary := d } mc) >>= _) = Except.map _ (Except.map Prod.fst (rec (jitterless c.tiny p).relist mc) >>= _)
      rw [h1, h2]; rfl
    · cases this
    · cases this
    · have hx : x.1 = x'.1 := Except.ok.inj this
      show Except.map _ (Except.map Prod.fst (rec { (jitterless c.tiny p).relist with dictVary := d } mc) >>= _) = Except.map _ (Except.map Prod.fst (rec (jitterless c.tiny p).relist mc) >>= _)
      rw [h1, h2]
      change Except.map _ (rec _ x.1 >>= _) = Except.map _ (rec _ x'.1 >>= _)
      rw [hx]
      exact ignores_last rec h p d x'.1
  · exact ignores_last rec h p d mc

theorem ignores_gpStage (c : CompConsts α) (rec : CompRec α) (h : IgnoresDict rec) : IgnoresDict (gpStage c rec) := by
  intro p d mc
  unfold gpStage
  simp only []
  split
  · rcases p.hnames.foldlM (gpStep c) p.vec with e | v
    · rfl
    · have := h.fst ({ p with vec := v } : CPost α) d mc
      show Except.map _ (rec { ({ p with vec := v } : CPost α) with dictVary := d } mc >>= fun r => rec ({ p with dictVary := d } : CPost α).relist r.1) = Except.map _ (rec { p with vec := v } mc >>= fun r => rec p.relist r.1)
      rw [bind_fst _ _ this (fun l => rec ({ p with dictVary := d } : CPost α).relist l)]
      rcases rec { p with vec := v } mc with e | x
      · rfl
      · exact h p.relist d x.1
  · exact h p.relist d mc

theorem modelComp_ignores (c : CompConsts α) (opt : Dict Key (Row α) → List Nat → Nat → α) (params : List Comp) : IgnoresDict (modelComp c opt params) := by
  induction hn : params.length using Nat.strongRecOn generalizing params with
  | _ n ih =>
    intro p d mc
    have hrec : ∀ x, x ∈ params → IgnoresDict (modelComp c opt (without x params)) := fun x hx => ih _ (hn ▸ without_length hx) _ rfl
    unfold modelComp
    split
    · rfl
    split
    · rename_i h; exact ignores_gpStage c _ (hrec _ h) p d mc
    split
    · rename_i h; exact ignores_jitStage c _ (hrec _ h) p d mc
    split
    · rename_i h; exact ignores_trendStage c _ (hrec _ h) p d mc
    split
    · rename_i h
      unfold planetStage
      simp only [bind, Except.bind]
      rcases p.basis.eparams with e | es
      · rfl
      simp only []
      rcases p.basis.circparams with e | cs
      · rfl
      exact ignores_groupStage _ _ _ (hrec _ h) p d mc
    split
    · rename_i h
      unfold eStage
      simp only [bind, Except.bind]
      rcases p.basis.eparams with e | es
      · rfl
      exact ignores_groupStage _ _ _ (hrec _ h) p d mc
    · rfl

theorem stripDict_inj {p q : CPost α} (h : stripDict p = stripDict q) : q = { p with dictVary := q.dictVary } := by
  obtain ⟨a, b, c, d, e, f, g⟩ := p
  obtain ⟨a', b', c', d', e', f', g'⟩ := q
  simp only [stripDict, CPost.mk.injEq] at h ⊢
  obtain ⟨h1, _, h3, h4, h5, h6, h7⟩ := h
  exact ⟨h1.symm, trivial, h3.symm, h4.symm, h5.symm, h6.symm, h7.symm⟩

theorem unmixedLoop_ignores (c : CompConsts α) (opt : Dict Key (Row α) → List Nat → Nat → α) : ∀ (ts : List Comp) (p : CPost α) (d : Dict Key Bool) (store stats : List (CompEntry α)),
    (unmixedLoop c opt ts { p with dictVary := d } store stats).map (fun r => (r.1, r.2.2)) = (unmixedLoop c opt ts p store stats).map (fun r => (r.1, r.2.2)) := by
  intro ts
  induction ts with
  | nil => intro p d store stats; rfl
  | cons t ts ih =>
    intro p d store stats
    unfold unmixedLoop modelCompCall
    simp only []
    have := modelComp_ignores c opt [t] p d store
    rcases h1 : modelComp c opt [t] { p with dictVary := d } store with e | x <;> rcases h2 : modelComp c opt [t] p store with e' | x' <;> rw [h1, h2] at this
    · cases this; rfl
    · cases this
    · cases this
    · have hx := Except.ok.inj this
      simp only [Prod.mk.injEq] at hx
      have hq := stripDict_inj hx.2.symm
      show Except.map _ (unmixedLoop c opt ts x.2 x.1 (stats ++ x.1)) = Except.map _ (unmixedLoop c opt ts x'.2 x'.1 (stats ++ x'.1))
      rw [hx.1, hq]
      exact ih x'.2 _ _ _

/-- C73 is false for every posterior: the option changes nothing. -/
theorem C73_violated (c : CompConsts α) (opt : Dict Key (Row α) → List Nat → Nat → α) (store : List (CompEntry α)) (simple mixed : Bool) (types : List Comp) (p : CPost α) :
    icCompare c opt store simple true mixed types p = icCompare c opt store simple false mixed types p := by
  unfold icCompare
  split
  · rfl
  · simp only [if_true, Bool.false_eq_true, if_false]
    split
    · unfold modelCompCall
      simp only []
      have := (modelComp_ignores c opt types).fst p (fixJitter p).dictVary store
      rw [show fixJitter p = { p with dictVary := (fixJitter p).dictVary } from rfl]
      rcases h1 : modelComp c opt types { p with dictVary := (fixJitter p).dictVary } store with e | x <;> rcases h2 : modelComp c opt types p store with e' | x' <;> rw [h1, h2] at this
      · cases this; rfl
      · cases this
      · cases this
      · have hx : x.1 = x'.1 := Except.ok.inj this
        show Except.ok (x.1, x.1) = Except.ok (x'.1, x'.1)
        rw [hx]
    · have := unmixedLoop_ignores c opt types p (fixJitter p).dictVary store []
      rw [show fixJitter p = { p with dictVary := (fixJitter p).dictVary } from rfl]
      rcases h1 : unmixedLoop c opt types { p with dictVary := (fixJitter p).dictVary } store [] with e | x <;> rcases h2 : unmixedLoop c opt types p store [] with e' | x' <;> rw [h1, h2] at this
      · cases this; rfl
      · cases this
      · cases this
      · have hx := Except.ok.inj this
        simp only [Prod.mk.injEq] at hx
        show Except.ok (dedupe x.1, x.2.2) = Except.ok (dedupe x'.1, x'.2.2)
        rw [hx.1, hx.2]

/-- What the option does do (C73): in the parameter dictionary every parameter whose name starts with `jit` is marked as fixed and all others keep their flags. The comparison reads the vector
instead (`C73_violated`). -/
theorem C73_dictionary (p : CPost α) (k : Key) :
    (fixJitter p).dictVary.get? k = (p.dictVary.get? k).map (fun b => if "jit".toList <+: k.render then false else b) ∧ { fixJitter p with dictVary := p.dictVary } = p := by
  refine ⟨?_, rfl⟩
  have : ∀ d : Dict Key Bool, Dict.get? (d.map fun x => if "jit".toList.isPrefixOf x.1.render then (x.1, false) else x) k =
      (Dict.get? d k).map (fun b => if "jit".toList <+: k.render then false else b) := by
    intro d
    induction d with
    | nil => rfl
    | cons x t ih =>
      obtain ⟨j, b⟩ := x
      rw [List.map_cons]
      have e1 : (if "jit".toList.isPrefixOf (j, b).1.render = true then ((j, b).1, false) else (j, b)) = (j, if "jit".toList.isPrefixOf j.render = true then false else b) := by split <;> rfl
      rw [e1, Dict.get?_cons, Dict.get?_cons]
      by_cases hj : j = k
      · subst hj
        rw [if_pos rfl, if_pos rfl, Option.map_some]
        simp only [List.isPrefixOf_iff_prefix]
      · rw [if_neg hj, if_neg hj, ih]
  exact this _

/-- Non-vacuity: a posterior with a jitter that varies. -/
example : (fixJitter { twoPlanets with dictVary := [(.orb .k 1, true), (.inst .jit "", true)] }).dictVary = [(.orb .k 1, true), (.inst .jit "", false)] := by decide +kernel

/-- C73, a concrete case: with `--fixjitter` the jitter is free in the models compared. -/
theorem C73_witness_violated : ∃ a b s, icCompare ⟨0, -1, 0⟩ (fun _ _ _ => (7 : Int)) [] false true true [.trend] twoPlanets = .ok ([a, b], s) ∧ FreeLabel.jit ∈ a.labels ∧ FreeLabel.jit ∈ b.labels := by
  unfold icCompare modelCompCall
  simp only [Bool.false_eq_true, if_false, if_true, modelComp_trend]
  have : modelComp ⟨0, -1, 0⟩ (fun _ _ _ => (7 : Int)) [] = fun p mc => (leafComp (fun _ _ _ => (7 : Int)) p).map fun r => (mc ++ [r.1], r.2) := by
    funext p mc; rw [modelComp_nil]
  rw [this]
  exact ⟨_, _, _, rfl, by decide, by decide⟩

/-! ## C74 -/

theorem dedupe_snoc (l : List (CompEntry α)) (d : CompEntry α) : dedupe (l ++ [d]) = if (dedupe l).any (fun s => sameCounts d.labels s.labels) then dedupe l else dedupe l ++ [d] := by
  unfold dedupe; rw [List.foldl_append]; rfl

theorem any_sameCounts (l : List (CompEntry α)) (d : CompEntry α) : l.any (fun s => sameCounts d.labels s.labels) = true ↔ ∃ s ∈ l, s.labels.Perm d.labels := by
  rw [List.any_eq_true]
  constructor
  · rintro ⟨s, hs, h⟩; exact ⟨s, hs, (List.isPerm_iff.1 h).symm⟩
  · rintro ⟨s, hs, h⟩; exact ⟨s, hs, List.isPerm_iff.2 h.symm⟩

/-- C74 for the labels of the free parameters: of the list of results exactly the entries are kept, in the same order, whose labels are not those of an earlier entry up to order. -/
theorem C74_labels_partial (l : List (CompEntry α)) :
    (dedupe l).Sublist l ∧ (dedupe l).Pairwise (fun a b => ¬ a.labels.Perm b.labels) ∧ (∀ d ∈ l, ∃ s ∈ dedupe l, s.labels.Perm d.labels) ∧
    ∀ a d b, l = a ++ d :: b → (∀ x ∈ a, ¬ x.labels.Perm d.labels) → d ∈ dedupe l := by
  have h123 : ∀ l : List (CompEntry α), (dedupe l).Sublist l ∧ (dedupe l).Pairwise (fun a b => ¬ a.labels.Perm b.labels) ∧ (∀ d ∈ l, ∃ s ∈ dedupe l, s.labels.Perm d.labels) := by
    intro l
    induction l using List.reverseRecOn with
    | nil => exact ⟨List.Sublist.refl _, List.Pairwise.nil, by simp⟩
    | append_singleton l d ih =>
      rw [dedupe_snoc]
      by_cases h : (dedupe l).any (fun s => sameCounts d.labels s.labels) = true
      · rw [if_pos h]
        refine ⟨ih.1.trans (List.sublist_append_left _ _), ih.2.1, ?_⟩
        intro x hx
        rcases List.mem_append.1 hx with hx | hx
        · exact ih.2.2 x hx
        · rw [List.mem_singleton] at hx
          subst hx
          exact (any_sameCounts _ _).1 h
      · rw [if_neg h]
        rw [any_sameCounts] at h
        push Not at h
        refine ⟨ih.1.append (List.Sublist.refl _), ?_, ?_⟩
        · rw [List.pairwise_append]
          refine ⟨ih.2.1, List.pairwise_singleton _ _, ?_⟩
          intro a ha b hb
          rw [List.mem_singleton] at hb
          subst hb
          exact h a ha
        · intro x hx
          rcases List.mem_append.1 hx with hx | hx
          · obtain ⟨s, hs, hp⟩ := ih.2.2 x hx
            exact ⟨s, List.mem_append_left _ hs, hp⟩
          · rw [List.mem_singleton] at hx
            subst hx
            exact ⟨x, by simp, List.Perm.refl _⟩
  refine ⟨(h123 l).1, (h123 l).2.1, (h123 l).2.2, ?_⟩
  intro a d b hl ha
  subst hl
  have hd : d ∈ dedupe (a ++ [d]) := by
    rw [dedupe_snoc, if_neg]
    · simp
    · rw [any_sameCounts]
      rintro ⟨s, hs, hp⟩
      exact ha s ((h123 a).1.subset hs) hp
  have hmono : ∀ (b : List (CompEntry α)) (a : List (CompEntry α)), ∀ x ∈ dedupe a, x ∈ dedupe (a ++ b) := by
    intro b
    induction b with
    | nil => intro a x hx; simpa using hx
    | cons y b ih =>
      intro a x hx
      rw [show a ++ y :: b = (a ++ [y]) ++ b by simp]
      apply ih
      rw [dedupe_snoc]
      split
      · exact hx
      · exact List.mem_append_left _ hx
  rw [show a ++ d :: b = (a ++ [d]) ++ b by simp]
  exact hmono b (a ++ [d]) d hd

/-- One planet whose amplitude is fixed and whose period is free. -/
def fixedAmplitude : CPost Int where
  vec := [(.orb .per 1, ⟨10, true, 0, false⟩), (.orb .tc 1, ⟨0, false, 0, false⟩), (.orb .secosw 1, ⟨0, false, 0, false⟩), (.orb .sesinw 1, ⟨0, false, 0, false⟩), (.orb .k 1, ⟨5, false, 0, false⟩),
    (.dvdt, ⟨1, true, 0, false⟩), (.curv, ⟨0, false, 0, false⟩)]
  dictVary := []
  likeCache := none
  postCache := none
  basis := .perTcSecoswSesinwK
  nplanets := 1
  hnames := []

/-- C74 is false for sets of free parameters: of two compared models, one with the planet (period and slope free) and one without it (only the slope free), only the second is kept, since the labels mention
neither periods nor times. -/
theorem C74_sets_violated : ∃ a b s, modelComp ⟨0, -1, 0⟩ (fun _ _ _ => (7 : Int)) [.nplanets] fixedAmplitude [] = .ok ([a, b], fixedAmplitude) ∧ a.nfree = 1 ∧ b.nfree = 2 ∧
    icCompare ⟨0, -1, 0⟩ (fun _ _ _ => (7 : Int)) [] false false false [.nplanets] fixedAmplitude = .ok ([a], s) := by
  have : modelComp ⟨0, -1, 0⟩ (fun _ _ _ => (7 : Int)) [] = fun p mc => (leafComp (fun _ _ _ => (7 : Int)) p).map fun r => (mc ++ [r.1], r.2) := by
    funext p mc; rw [modelComp_nil]
  unfold icCompare unmixedLoop modelCompCall
  simp only [Bool.false_eq_true, if_false, modelComp_nplanets, this]
  exact ⟨_, _, _, rfl, by decide, by decide, rfl⟩

/-! ## C100 -/

/-- C100 for comparisons of at least one kind other than 'gp': the caller's posterior is unchanged. -/
theorem C100_partial (c : CompConsts α) (opt : Dict Key (Row α) → List Nat → Nat → α) (params : List Comp) (hne : params ≠ []) (hgp : Comp.gp ∉ params) (p q : CPost α) (mc r : List (CompEntry α))
    (h : modelComp c opt params p mc = .ok (r, q)) : q = p := by
  have hgroup : ∀ edit ws (rec : CompRec α), groupStage edit ws rec p mc = .ok (r, q) → q = p := by
    intro edit ws rec h
    unfold groupStage at h
    simp only [bind, Except.bind] at h
    split at h
    · cases h
    · split at h
      · cases h
      · cases h; rfl
  unfold modelComp at h
  rw [if_neg hne, dif_neg hgp] at h
  split at h
  · unfold jitStage at h
    simp only [bind, Except.bind] at h
    split at h
    · split at h
      · cases h
      · split at h
        · cases h
        · cases h; rfl
    · split at h
      · cases h
      · cases h; rfl
  split at h
  · unfold trendStage at h
    simp only [bind, Except.bind] at h
    split at h
    · cases h
    · split at h
      · cases h
      · cases h; rfl
  split at h
  · unfold planetStage at h
    simp only [bind, Except.bind] at h
    split at h
    · cases h
    · split at h
      · cases h
      · exact hgroup _ _ _ h
  split at h
  · unfold eStage at h
    simp only [bind, Except.bind] at h
    split at h
    · cases h
    · exact hgroup _ _ _ h
  · cases h

/-- C100 is false for the plain fit and for the 'gp' comparison: there the caller's posterior ends up with the optimiser's values in every free row. -/
theorem C100_violated (c : CompConsts α) (opt : Dict Key (Row α) → List Nat → Nat → α) (params : List Comp) (hpar : params = [] ∨ params = [.gp]) (p q : CPost α) (hp : FreshCaches p) (mc r : List (CompEntry α))
    (h : modelComp c opt params p mc = .ok (r, q)) :
    ∀ (i : Nat) k row, p.vec[i]? = some (k, row) → row.vary = true → (q.vec[i]?).map (fun x => x.2.value) = some (opt p.vec (freeRows (p.vec.map Prod.snd)) i) := by
  have hleaf : ∀ (p' q' : CPost α) (mc r : List (CompEntry α)), FreshCaches p' → modelComp c opt [] p' mc = .ok (r, q') → ∀ (i : Nat) k row, p'.vec[i]? = some (k, row) → row.vary = true →
      (q'.vec[i]?).map (fun x => x.2.value) = some (opt p'.vec (freeRows (p'.vec.map Prod.snd)) i) := by
    intro p' q' mc r hf h i k row hi hv
    rw [modelComp_nil] at h
    unfold leafComp at h
    simp only [bind, Except.bind] at h
    rcases hl : freeLabels (fitPost opt p').basis (fitPost opt p').vec with e | l
    · rw [hl] at h; cases h
    · rw [hl] at h; cases h
      have hfr : fitRows p' = freeRows (p'.vec.map Prod.snd) := by
        unfold fitRows cacheCount
        rw [hf.1, hf.2]; simp
      have hin : i ∈ fitRows p' := by
        rw [hfr, mem_freeRows]
        exact ⟨row, by rw [List.getElem?_map, hi]; rfl, hv⟩
      simp [fitPost, List.getElem?_zipIdx, hi, hin]
      rw [hfr]
  rcases hpar with rfl | rfl
  · exact hleaf p q mc r hp h
  · rw [modelComp_gp] at h
    unfold gpStage at h
    split at h
    · simp only [bind, Except.bind] at h
      split at h
      · cases h
      · split at h
        · cases h
        · exact hleaf p.relist q _ r (relist_fresh p) h
    · exact hleaf p.relist q _ r (relist_fresh p) h

/-- The planets of `twoPlanets` with a Gaussian process. -/
def withGP : CPost Int :=
  { twoPlanets with vec := twoPlanets.vec ++ [(.other "gp_amp", ⟨3, true, 0, false⟩), (.other "gp_per", ⟨30, true, 0, false⟩)], hnames := [.other "gp_amp", .other "gp_per"] }

/-- Non-vacuity of `C72_violated` and `C100_violated`: two entries of eight free parameters each. -/
example : FreshCaches withGP.relist ∧ (∃ k ∈ withGP.relist.vec.keys, isInfix "gp_amp".toList k.render = true) ∧
    ∃ a b q, modelComp ⟨0, -1, 0⟩ (fun _ _ _ => (7 : Int)) [.gp] withGP.relist [] = .ok ([a, b], q) ∧ a.nfree = 8 ∧ b.nfree = 8 := by
  have : modelComp ⟨0, -1, 0⟩ (fun _ _ _ => (7 : Int)) [] = fun p mc => (leafComp (fun _ _ _ => (7 : Int)) p).map fun r => (mc ++ [r.1], r.2) := by
    funext p mc; rw [modelComp_nil]
  refine ⟨relist_fresh _, ⟨.other "gp_amp", by decide, by decide⟩, ?_⟩
  rw [modelComp_gp, this]
  exact ⟨_, _, _, rfl, by decide, by decide⟩

/-- `withGP` with fixed hyperparameters. -/
def withFixedGP : CPost Int :=
  { twoPlanets with vec := twoPlanets.vec ++ [(.other "gp_amp", ⟨3, false, 0, false⟩), (.other "gp_per", ⟨30, false, 0, false⟩)], hnames := [.other "gp_amp", .other "gp_per"] }

/-- Non-vacuity of `C72_fixed_partial`. -/
example : FreshCaches withFixedGP.relist ∧ withFixedGP.relist.vec.keys.Nodup ∧ Key.other "gp_amp" ∈ withFixedGP.relist.hnames ∧ (∃ k ∈ withFixedGP.relist.vec.keys, isInfix "gp_amp".toList k.render = true) ∧
    (∀ r, withFixedGP.relist.vec.get? (.other "gp_amp") = some r → r.vary = false) ∧
    ∃ a b q, modelComp ⟨0, -1, 0⟩ (fun _ _ _ => (7 : Int)) [.gp] withFixedGP.relist [] = .ok ([a, b], q) := by
  have : modelComp ⟨0, -1, 0⟩ (fun _ _ _ => (7 : Int)) [] = fun p mc => (leafComp (fun _ _ _ => (7 : Int)) p).map fun r => (mc ++ [r.1], r.2) := by
    funext p mc; rw [modelComp_nil]
  refine ⟨relist_fresh _, by decide, by decide, ⟨.other "gp_amp", by decide, by decide⟩, ?_, ?_⟩
  · intro r h
    have h' : some (⟨3, false, 0, false⟩ : Row Int) = some r := h
    cases h'
    rfl
  · rw [modelComp_gp, this]
    exact ⟨_, _, _, rfl⟩

/-- Non-vacuity of `C100_partial`. -/
example : ∃ r q, modelComp ⟨0, -1, 0⟩ (fun _ _ _ => (7 : Int)) [.jit] twoPlanets [] = .ok (r, q) ∧ r.length = 2 := by
  have : modelComp ⟨0, -1, 0⟩ (fun _ _ _ => (7 : Int)) [] = fun p mc => (leafComp (fun _ _ _ => (7 : Int)) p).map fun r => (mc ++ [r.1], r.2) := by
    funext p mc; rw [modelComp_nil]
  rw [modelComp_jit, this]
  exact ⟨_, _, rfl, rfl⟩

end Radvel
