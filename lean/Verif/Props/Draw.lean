import Verif.Model.Draw
import Verif.Lemmas.Dict
import Verif.Spec.Basis
import Verif.Props.RVModel

/-!
# Property theorems C60 and C93
-/

namespace Radvel
open Real

/-! ## C60 -/

theorem modelCall_congr (drive : Drive) (tb : ℝ) (s s' : VState ℝ) (pl : Option Nat) (t : ℝ) (h1 : s'.rows = s.rows) (h2 : s'.indices = s.indices) (h3 : s'.params.basis = s.params.basis)
    (h4 : s'.params.numPlanets = s.params.numPlanets) : modelCall drive tb s' pl t = modelCall drive tb s pl t := by
  unfold modelCall standardRvCalc trendCoef
  rw [h1, h2, h3, h4]

theorem callOn_congr (drive : Drive) (tb : ℝ) (ts : List ℝ) (s s' : VState ℝ) (h1 : s'.rows = s.rows) (h2 : s'.indices = s.indices) (h3 : s'.params.basis = s.params.basis)
    (h4 : s'.params.numPlanets = s.params.numPlanets) : callOn drive tb ts s' = callOn drive tb ts s := by
  unfold callOn
  congr 1
  funext t
  exact modelCall_congr drive tb s s' none t h1 h2 h3 h4

/-- What `mod(t)` reads. -/
structure SameVector (s s' : VState ℝ) : Prop where
  rows : s'.rows = s.rows
  indices : s'.indices = s.indices
  basis : s'.params.basis = s.params.basis
  planets : s'.params.numPlanets = s.params.numPlanets

theorem SameVector.refl (s : VState ℝ) : SameVector s s := ⟨rfl, rfl, rfl, rfl⟩

theorem SameVector.trans {a b c : VState ℝ} (h : SameVector a b) (h' : SameVector b c) : SameVector a c :=
  ⟨h'.rows.trans h.rows, h'.indices.trans h.indices, h'.basis.trans h.basis, h'.planets.trans h.planets⟩

theorem setValues_frame (ks : List Key) (vs : List ℝ) (p : Params ℝ) : (setValues ks vs p).basis = p.basis ∧ (setValues ks vs p).numPlanets = p.numPlanets := by
  unfold setValues
  generalize ks.zip vs = l
  induction l generalizing p with
  | nil => exact ⟨rfl, rfl⟩
  | cons x l ih => rw [List.foldl_cons]; exact ih _

theorem listParams_st (m : ModelObj) : (m.listParams).1.st = m.st := by
  unfold ModelObj.listParams
  split <;> rfl

theorem listVary_st (m : ModelObj) : (m.listVaryParams).1.st = m.st := by
  unfold ModelObj.listVaryParams
  have := listParams_st m
  rcases hm : m.listParams with ⟨m1, ks⟩
  rw [hm] at this
  simp only
  split <;> exact this

theorem arrayToParams_same (m : ModelObj) (vs : List ℝ) : SameVector m.st (m.arrayToParams vs).1.st := by
  unfold ModelObj.arrayToParams
  have h := listVary_st m
  rcases hm : m.listVaryParams with ⟨m1, r⟩
  rw [hm] at h
  simp only at h
  cases r with
  | error e => rw [← h]; exact SameVector.refl _
  | ok ks =>
    simp only
    split
    · rw [← h]; exact SameVector.refl _
    · rw [← h]
      exact ⟨rfl, rfl, (setValues_frame ks vs m1.st.params).1, (setValues_frame ks vs m1.st.params).2⟩

theorem drawStep_same (drive : Drive) (tb : ℝ) (ts : List ℝ) (chain : ChainTable) (acc acc' : ModelObj × List (List (Option ℝ))) (i : Nat)
    (h : drawStep (callOn drive tb ts) chain acc i = .ok acc') :
    SameVector acc.1.st acc'.1.st ∧ ∃ row, callOn drive tb ts acc.1.st = .ok row ∧ acc'.2 = acc.2 ++ [row] := by
  unfold drawStep at h
  have h1 := listVary_st acc.1
  rcases hm : acc.1.listVaryParams with ⟨m1, r⟩
  rw [hm] at h h1
  simp only at h h1
  cases r with
  | error e => cases h
  | ok names =>
    simp only at h
    rcases hv : chainLoc chain i names with e | vs
    · rw [hv] at h; cases h
    · rw [hv] at h
      simp only at h
      have h2 := arrayToParams_same m1 vs
      rcases ha : m1.arrayToParams vs with ⟨m2, r2⟩
      rw [ha] at h h2
      simp only at h h2
      cases r2 with
      | error e => cases h
      | ok _ =>
        simp only at h
        rcases hc : callOn drive tb ts m2.st with e | row
        · rw [hc] at h; cases h
        · rw [hc] at h
          cases h
          rw [h1] at h2
          exact ⟨h2, row, by rw [← hc]; exact (callOn_congr _ _ _ _ _ h2.rows h2.indices h2.basis h2.planets).symm, rfl⟩

theorem foldlM_same (drive : Drive) (tb : ℝ) (ts : List ℝ) (chain : ChainTable) (labels : List Nat) (acc acc' : ModelObj × List (List (Option ℝ)))
    (h : labels.foldlM (drawStep (callOn drive tb ts) chain) acc = .ok acc') :
    SameVector acc.1.st acc'.1.st ∧ ∃ rows, acc'.2 = acc.2 ++ rows ∧ rows.length = labels.length ∧ ∀ row ∈ rows, callOn drive tb ts acc.1.st = .ok row := by
  induction labels generalizing acc with
  | nil => cases h; exact ⟨SameVector.refl _, [], by simp, rfl, by simp⟩
  | cons i labels ih =>
    rw [List.foldlM_cons] at h
    rcases hs : drawStep (callOn drive tb ts) chain acc i with e | acc1
    · rw [hs] at h; cases h
    · rw [hs] at h
      obtain ⟨h1, row, h2, h3⟩ := drawStep_same drive tb ts chain acc acc1 i hs
      obtain ⟨h4, rows, h5, h6, h7⟩ := ih acc1 h
      refine ⟨h1.trans h4, row :: rows, by rw [h5, h3]; simp, by simp [h6], ?_⟩
      intro r hr
      rcases List.mem_cons.1 hr with rfl | hr
      · exact h2
      · rw [← h7 r hr]
        exact (callOn_congr _ _ _ _ _ h1.rows h1.indices h1.basis h1.planets).symm

theorem mapM_length {α β ε : Type} (f : α → Except ε β) (l : List α) (out : List β) (h : l.mapM f = .ok out) : out.length = l.length := by
  induction l generalizing out with
  | nil => cases h; rfl
  | cons a l ih =>
    rw [List.mapM_cons] at h
    rcases ha : f a with e | b
    · rw [ha] at h; cases h
    · rw [ha] at h
      rcases hl : l.mapM f with e | bs
      · rw [hl] at h; cases h
      · rw [hl] at h
        cases h
        simp [ih bs hl]

/-- C60 is false: whatever the chain and the draws, every row returned is the model as it was before the call. -/
theorem C60_rows_violated (drive : Drive) (tb : ℝ) (ts : List ℝ) (m m' : ModelObj) (chain : ChainTable) (draws : List Nat) (rows : List (List (Option ℝ)))
    (h : drawModels (callOn drive tb ts) m chain draws = .ok (m', rows)) : rows.length = draws.length ∧ ∀ row ∈ rows, callOn drive tb ts m.st = .ok row := by
  unfold drawModels at h
  rcases hi : chainIloc chain draws with e | labels
  · rw [hi] at h; cases h
  · rw [hi] at h
    obtain ⟨_, rows', h5, h6, h7⟩ := foldlM_same drive tb ts chain labels (m, []) (m', rows) h
    simp only [List.nil_append] at h5
    subst h5
    exact ⟨by rw [h6]; exact mapM_length _ _ _ hi, h7⟩

/-- No planet, slope 1. -/
def slopeParams (x : ℝ) : Params ℝ := (Params.init (0 : ℝ) 0 .perTpEWK none).setItem .dvdt { value := x }

theorem slope_user (x : ℝ) : UserParams (slopeParams x) := .set _ _ _ (.new 0 0 .perTpEWK none (by decide)) (.inr (.inl rfl)) (by simp)

/-- C60, concretely: the slope is 1 in the model and 2 in the only sample of the chain; the row for that sample at time 1 is 1, while the model for the sample's parameters
has the value 2 there. -/
theorem C60_violated (drive : Drive) : ∃ (s : VState ℝ) (m' : ModelObj) (chain : ChainTable), VState.init (slopeParams 1) = .ok s ∧ (chain.map Prod.fst = [0]) ∧
    (∀ r ∈ chain, r.2 .dvdt = some 2) ∧ drawModels (callOn drive 0 [1]) ⟨s, none⟩ chain [0] = .ok (m', [[some 1]]) ∧ curve drive 0 (slopeParams 2) 1 = .ok (some 2) := by
  have hs : VState.init (slopeParams 1) = .ok ⟨slopeParams 1, initIndexDict (slopeParams 1), [⟨1, true, 0, false⟩, Row.zero], [.dvdt, .curv]⟩ := rfl
  refine ⟨_, ⟨⟨setValues [.dvdt] [2] (slopeParams 1), initIndexDict (slopeParams 1), [⟨1, true, 0, false⟩, Row.zero], [.dvdt, .curv]⟩, some [.dvdt]⟩,
    [(0, fun k => if k = .dvdt then some 2 else none)], hs, rfl, by simp, ?_, ?_⟩
  case refine_2 =>
    have h := C25_sum (slopeParams 2) (slope_user 2) (fun m => synthOfVals (slopeParams 2).basis (valsOf (slopeParams 2) m)) (elements_exist _ (slope_user 2).good.complete) drive 0 1
      (fun _ => 0) (by intro m hm; obtain ⟨h1, h2⟩ := hm; have : m ≤ 0 := h2; omega)
    rw [h]
    have h1 : trendOf (slopeParams 2) .dvdt = 2 := rfl
    have h2 : trendOf (slopeParams 2) .curv = 0 := rfl
    rw [h1, h2]
    norm_num
  case refine_1 =>
    have hcall : ∀ s : VState ℝ, s.rows = [⟨1, true, 0, false⟩, Row.zero] → s.indices = initIndexDict (slopeParams 1) → s.params.basis = .perTpEWK → s.params.numPlanets = 0 →
        callOn drive 0 [1] s = .ok [some 1] := by
      intro s h1 h2 h3 h4
      have : modelCall drive 0 s none 1 = .ok (addNan (addNan (some 0) (some (1 * (1 - 0)))) (some (0 * (1 - 0) ^ 2))) := by
        unfold modelCall standardRvCalc trendCoef
        rw [h1, h2, h3, h4]
        rfl
      unfold callOn
      simp only [List.mapM_cons, List.mapM_nil, this]
      simp [addNan, bind, Except.bind, pure, Except.pure]
    have hl : (⟨⟨slopeParams 1, initIndexDict (slopeParams 1), [⟨1, true, 0, false⟩, Row.zero], [.dvdt, .curv]⟩, none⟩ : ModelObj).listVaryParams =
        (⟨⟨slopeParams 1, initIndexDict (slopeParams 1), [⟨1, true, 0, false⟩, Row.zero], [.dvdt, .curv]⟩, some [.dvdt]⟩, .ok [.dvdt]) := rfl
    have hl2 : (⟨⟨slopeParams 1, initIndexDict (slopeParams 1), [⟨1, true, 0, false⟩, Row.zero], [.dvdt, .curv]⟩, some [.dvdt]⟩ : ModelObj).listVaryParams =
        (⟨⟨slopeParams 1, initIndexDict (slopeParams 1), [⟨1, true, 0, false⟩, Row.zero], [.dvdt, .curv]⟩, some [.dvdt]⟩, .ok [.dvdt]) := rfl
    have hstep : drawStep (callOn drive 0 [1]) [(0, fun k => if k = .dvdt then some 2 else none)]
        (⟨⟨slopeParams 1, initIndexDict (slopeParams 1), [⟨1, true, 0, false⟩, Row.zero], [.dvdt, .curv]⟩, none⟩, []) 0 =
        .ok (⟨⟨setValues [.dvdt] [2] (slopeParams 1), initIndexDict (slopeParams 1), [⟨1, true, 0, false⟩, Row.zero], [.dvdt, .curv]⟩, some [.dvdt]⟩, [[some 1]]) := by
      unfold drawStep
      rw [hl]
      have hloc : chainLoc [(0, fun k => if k = .dvdt then some (2 : ℝ) else none)] 0 [.dvdt] = .ok [2] := rfl
      simp only [hloc]
      unfold ModelObj.arrayToParams
      rw [hl2]
      simp only [List.length_cons, List.length_nil, Nat.lt_irrefl, if_false]
      rw [hcall _ rfl rfl rfl rfl]
      rfl
    unfold drawModels
    have hi : chainIloc [(0, fun k => if k = .dvdt then some (2 : ℝ) else none)] [0] = .ok [0] := rfl
    rw [hi]
    simp only [List.foldlM_cons, List.foldlM_nil, hstep]
    rfl

/-- C60, labels: the drawn index labels are used as positions, so a chain whose labels all lie beyond its length (for instance one with the burn-in rows dropped and the old labels
kept) raises `IndexError`. -/
theorem C60_labels_violated (call : VState ℝ → Except PyErr (List (Option ℝ))) (m : ModelObj) (chain : ChainTable) (draws : List Nat) (hne : draws ≠ [])
    (hd : ∀ j ∈ draws, j ∈ chain.map Prod.fst) (hl : ∀ r ∈ chain, chain.length ≤ r.1) : drawModels call m chain draws = .error .indexError := by
  cases draws with
  | nil => exact absurd rfl hne
  | cons j js =>
    have hj : chain.length ≤ j := by
      obtain ⟨r, h1, h2⟩ := List.mem_map.1 (hd j (by simp))
      rw [← h2]; exact hl r h1
    unfold drawModels chainIloc
    rw [List.mapM_cons, List.getElem?_eq_none hj]
    rfl

/-- Non-vacuity of `C60_labels_violated`. -/
example : ∃ (chain : ChainTable) (draws : List Nat), draws ≠ [] ∧ (∀ j ∈ draws, j ∈ chain.map Prod.fst) ∧ ∀ r ∈ chain, chain.length ≤ r.1 :=
  ⟨[(100, fun _ => some 1), (101, fun _ => some 2)], [101], by simp, by simp, by simp⟩

/-! ### The dictionary after drawing -/

/-- The keys of the free parameters, in dictionary order. -/
def freeKeys (p : Params ℝ) : List Key := p.items.keys.filter (fun k => decide ((p.items.get? k).map Parameter.vary = some .yes))

theorem listVary_eq (m : ModelObj) (h : m.order = none ∨ m.order = some m.st.params.items.keys) :
    m.listVaryParams = (⟨m.st, some m.st.params.items.keys⟩, .ok (freeKeys m.st.params)) := by
  have h1 : m.listParams = (⟨m.st, some m.st.params.items.keys⟩, m.st.params.items.keys) := by
    unfold ModelObj.listParams
    rcases h with h | h
    · rw [h]
    · rw [h]; simp only; rw [← h]
  unfold ModelObj.listVaryParams
  rw [h1]
  simp only
  rw [if_pos (by intro k hk; exact (Dict.has_iff _ _).2 hk)]
  rfl

theorem setValues_spec (ks : List Key) (vs : List ℝ) (p : Params ℝ) (hn : ks.Nodup) (hl : ks.length ≤ vs.length) (hk : ∀ k ∈ ks, k ∈ p.items.keys) :
    (setValues ks vs p).items.keys = p.items.keys ∧ (∀ k v, (k, v) ∈ ks.zip vs → (setValues ks vs p).items.get? k = some { value := v }) ∧
    (∀ k, k ∉ ks → (setValues ks vs p).items.get? k = p.items.get? k) := by
  induction ks generalizing vs p with
  | nil => exact ⟨rfl, by simp, fun _ _ => rfl⟩
  | cons a ks ih =>
    cases vs with
    | nil => simp at hl
    | cons v vs =>
      rw [List.nodup_cons] at hn
      have hkeys : (p.setItem a { value := v }).items.keys = p.items.keys := Dict.keys_set_of_mem _ _ (hk a (by simp))
      obtain ⟨h1, h2, h3⟩ := ih vs (p.setItem a { value := v }) hn.2 (by simpa using hl) (by intro k h; rw [hkeys]; exact hk k (by simp [h]))
      have hun : setValues (a :: ks) (v :: vs) p = setValues ks vs (p.setItem a { value := v }) := rfl
      rw [hun]
      refine ⟨h1.trans hkeys, ?_, ?_⟩
      · intro k w hkw
        rw [List.zip_cons_cons, List.mem_cons] at hkw
        rcases hkw with hkw | hkw
        · cases hkw
          rw [h3 a hn.1]
          simp [Params.setItem]
        · exact h2 k w hkw
      · intro k hk'
        rw [List.mem_cons, not_or] at hk'
        rw [h3 k hk'.2]
        simp [Params.setItem, Dict.get?_set, Ne.symm hk'.1]

theorem freeKeys_setValues (p : Params ℝ) (hn : p.items.keys.Nodup) (vs : List ℝ) (hl : (freeKeys p).length = vs.length) :
    freeKeys (setValues (freeKeys p) vs p) = freeKeys p := by
  have hfn : (freeKeys p).Nodup := hn.filter _
  have hfk : ∀ k ∈ freeKeys p, k ∈ p.items.keys := fun k hk => (List.mem_filter.1 hk).1
  obtain ⟨h1, h2, h3⟩ := setValues_spec (freeKeys p) vs p hfn hl.le hfk
  show (setValues (freeKeys p) vs p).items.keys.filter _ = p.items.keys.filter _
  rw [h1]
  apply List.filter_congr
  intro k hk
  by_cases hf : k ∈ freeKeys p
  · obtain ⟨v, hv⟩ : ∃ v, (k, v) ∈ (freeKeys p).zip vs := by
      obtain ⟨i, hi, rfl⟩ := List.getElem_of_mem hf
      exact ⟨vs[i]'(by omega), List.mem_iff_getElem.2 ⟨i, by simp; omega, by simp⟩⟩
    rw [h2 k v hv]
    have := (List.mem_filter.1 hf).2
    simp only [this]
    simp
  · rw [h3 k hf]

theorem chainLoc_length (chain : ChainTable) (i : Nat) (ks : List Key) (vs : List ℝ) (h : chainLoc chain i ks = .ok vs) : vs.length = ks.length := by
  unfold chainLoc at h
  split at h
  · cases h
  · exact mapM_length _ _ _ h

theorem drawStep_params (call : VState ℝ → Except PyErr (List (Option ℝ))) (chain : ChainTable) (acc acc' : ModelObj × List (List (Option ℝ))) (i : Nat)
    (hn : acc.1.st.params.items.keys.Nodup) (ho : acc.1.order = none ∨ acc.1.order = some acc.1.st.params.items.keys) (h : drawStep call chain acc i = .ok acc') :
    ∃ vs, chainLoc chain i (freeKeys acc.1.st.params) = .ok vs ∧ acc'.1.st.params = setValues (freeKeys acc.1.st.params) vs acc.1.st.params ∧
      acc'.1.order = some acc.1.st.params.items.keys := by
  unfold drawStep at h
  rw [listVary_eq acc.1 ho] at h
  simp only at h
  rcases hv : chainLoc chain i (freeKeys acc.1.st.params) with e | vs
  · rw [hv] at h; cases h
  · rw [hv] at h
    simp only at h
    have hl := chainLoc_length chain i _ vs hv
    have ha : (⟨acc.1.st, some acc.1.st.params.items.keys⟩ : ModelObj).arrayToParams vs =
        (⟨{ acc.1.st with params := setValues (freeKeys acc.1.st.params) vs acc.1.st.params }, some acc.1.st.params.items.keys⟩, .ok ()) := by
      unfold ModelObj.arrayToParams
      rw [listVary_eq _ (.inr rfl)]
      simp only
      rw [if_neg (by omega)]
    rw [ha] at h
    simp only at h
    split at h
    · cases h
    · cases h
      exact ⟨vs, rfl, rfl, rfl⟩

/-- C60, side effect: with the usual index labels `0, 1, ..`, a completed call leaves in the dictionary, for every free parameter, the value of the last drawn sample, with
`mcmcscale` and `linear` reset; the fixed parameters are unchanged. (The property asks for all parameters to be as before.) -/
theorem C60_params_violated (call : VState ℝ → Except PyErr (List (Option ℝ))) (m m' : ModelObj) (hn : m.st.params.items.keys.Nodup) (ho : m.order = none) (chain : ChainTable)
    (hc : ∀ j : Nat, ∀ r, chain[j]? = some r → r.1 = j) (draws : List Nat) (last : Nat) (rows : List (List (Option ℝ)))
    (h : drawModels call m chain (draws ++ [last]) = .ok (m', rows)) :
    (∀ k, k ∉ freeKeys m.st.params → m'.st.params.items.get? k = m.st.params.items.get? k) ∧
    ∃ r, chain[last]? = some r ∧ ∀ k ∈ freeKeys m.st.params, ∃ v, r.2 k = some v ∧ m'.st.params.items.get? k = some { value := v } := by
  have hiloc : ∀ ds labels, chainIloc chain ds = .ok labels → labels = ds ∧ ∀ j ∈ ds, ∃ r, chain[j]? = some r := by
    intro ds
    induction ds with
    | nil => intro labels hh; cases hh; exact ⟨rfl, by simp⟩
    | cons j ds ih =>
      intro labels hh
      unfold chainIloc at hh
      rw [List.mapM_cons] at hh
      rcases hj : chain[j]? with _ | r
      · rw [hj] at hh; cases hh
      · rw [hj] at hh
        rcases hl : chainIloc chain ds with e | bs
        · unfold chainIloc at hl; rw [hl] at hh; cases hh
        · have hl' := hl
          unfold chainIloc at hl
          rw [hl] at hh
          cases hh
          obtain ⟨h1, h2⟩ := ih bs hl'
          refine ⟨by rw [h1, hc j r hj], ?_⟩
          intro x hx
          rcases List.mem_cons.1 hx with rfl | hx
          · exact ⟨r, hj⟩
          · exact h2 x hx
  have hinv : ∀ (labels : List Nat) (acc acc' : ModelObj × List (List (Option ℝ))), acc.1.st.params.items.keys.Nodup →
      (acc.1.order = none ∨ acc.1.order = some acc.1.st.params.items.keys) → labels.foldlM (drawStep call chain) acc = .ok acc' →
      acc'.1.st.params.items.keys = acc.1.st.params.items.keys ∧ freeKeys acc'.1.st.params = freeKeys acc.1.st.params ∧
      (acc'.1.order = none ∨ acc'.1.order = some acc'.1.st.params.items.keys) ∧
      ∀ k, k ∉ freeKeys acc.1.st.params → acc'.1.st.params.items.get? k = acc.1.st.params.items.get? k := by
    intro labels
    induction labels with
    | nil => intro acc acc' _ h2 h3; cases h3; exact ⟨rfl, rfl, h2, fun _ _ => rfl⟩
    | cons i labels ih =>
      intro acc acc' h1 h2 h3
      rw [List.foldlM_cons] at h3
      rcases hs : drawStep call chain acc i with e | acc1
      · rw [hs] at h3; cases h3
      · rw [hs] at h3
        obtain ⟨vs, g1, g2, g3⟩ := drawStep_params call chain acc acc1 i h1 h2 hs
        have gl := chainLoc_length chain i _ vs g1
        obtain ⟨s1, s2, s3⟩ := setValues_spec (freeKeys acc.1.st.params) vs acc.1.st.params (h1.filter _) gl.ge (fun k hk => (List.mem_filter.1 hk).1)
        have k1 : acc1.1.st.params.items.keys = acc.1.st.params.items.keys := by rw [g2]; exact s1
        have k2 : freeKeys acc1.1.st.params = freeKeys acc.1.st.params := by rw [g2]; exact freeKeys_setValues _ h1 vs gl.symm
        obtain ⟨i1, i2, i3, i4⟩ := ih acc1 acc' (by rw [k1]; exact h1) (.inr (by rw [g3, k1])) h3
        refine ⟨i1.trans k1, i2.trans k2, i3, ?_⟩
        intro k hk
        rw [i4 k (by rw [k2]; exact hk), g2, s3 k hk]
  unfold drawModels at h
  rcases hi : chainIloc chain (draws ++ [last]) with e | labels
  · rw [hi] at h; cases h
  · rw [hi] at h
    obtain ⟨e1, e2⟩ := hiloc _ _ hi
    rw [e1] at h
    simp only at h
    have hall := hinv _ _ _ (by exact hn) (.inl ho) h
    refine ⟨hall.2.2.2, ?_⟩
    rw [List.foldlM_append] at h
    rcases hf : draws.foldlM (drawStep call chain) (m, []) with e | acc1
    · rw [hf] at h; cases h
    · rw [hf] at h
      obtain ⟨i1, i2, i3, i4⟩ := hinv _ _ _ (by exact hn) (.inl ho) hf
      have h' : drawStep call chain acc1 last = .ok (m', rows) := by
        rcases hs : drawStep call chain acc1 last with e | acc2
        · have h2 : (Except.error e : Except PyErr (ModelObj × List (List (Option ℝ)))) = .ok (m', rows) := by
            rw [← h]
            show _ = (drawStep call chain acc1 last >>= fun b => pure b)
            rw [hs]; rfl
          cases h2
        · rw [← h]
          show _ = (drawStep call chain acc1 last >>= fun b => pure b)
          rw [hs]; rfl
      obtain ⟨vs, g1, g2, g3⟩ := drawStep_params call chain acc1 (m', rows) last (by rw [i1]; exact hn) i3 h'
      obtain ⟨r, hr⟩ := e2 last (by simp)
      refine ⟨r, hr, ?_⟩
      simp only at i2 g2
      rw [i2] at g1 g2
      have gl := chainLoc_length chain last _ vs g1
      obtain ⟨s1, s2, s3⟩ := setValues_spec (freeKeys m.st.params) vs acc1.1.st.params (hn.filter _) gl.ge (fun k hk => by
        rw [i1]; exact (List.mem_filter.1 hk).1)
      have hfind : chain.find? (fun r => decide (r.1 = last)) = some r := by
        rw [List.find?_eq_some_iff_getElem]
        have hlt := (List.getElem?_eq_some_iff.1 hr).1
        refine ⟨by simpa using hc last r hr, last, hlt, (List.getElem?_eq_some_iff.1 hr).2, ?_⟩
        intro j hj
        have hj' : chain[j]? = some chain[j] := List.getElem?_eq_getElem (by omega)
        have := hc j _ hj'
        simp only [Bool.not_eq_true', decide_eq_false_iff_not]
        omega
      unfold chainLoc at g1
      rw [hfind] at g1
      simp only at g1
      have hmap : ∀ (ks : List Key) (vs : List ℝ), ks.mapM (fun k => match r.2 k with | some v => Except.ok v | none => Except.error PyErr.keyError) = .ok vs →
          ∀ k ∈ ks, ∃ v, r.2 k = some v ∧ (k, v) ∈ ks.zip vs := by
        intro ks
        induction ks with
        | nil => intro vs _ k hk; simp at hk
        | cons a ks ih =>
          intro vs hvs k hk
          rw [List.mapM_cons] at hvs
          rcases ha : r.2 a with _ | v
          · rw [ha] at hvs; cases hvs
          · rw [ha] at hvs
            rcases hks : ks.mapM (fun k => match r.2 k with | some v => Except.ok v | none => Except.error PyErr.keyError) with e | ws
            · rw [hks] at hvs; cases hvs
            · rw [hks] at hvs
              cases hvs
              rcases List.mem_cons.1 hk with rfl | hk
              · exact ⟨v, ha, by simp⟩
              · obtain ⟨w, w1, w2⟩ := ih ws hks k hk
                exact ⟨w, w1, by simp [w2]⟩
      intro k hk
      obtain ⟨v, v1, v2⟩ := hmap _ _ g1 k hk
      exact ⟨v, v1, by rw [g2]; exact s2 k v v2⟩

/-! ## C93 -/

/-- A key that begins with `logjit`. -/
def IsLogjit (k : Key) : Prop := ∃ r, k = .inst .logjit r

theorem convertLogjit_skip (ks : List Key) (h : ∀ k ∈ ks, ¬ IsLogjit k) (rest : List Key) (d : Dict Key (Parameter ℝ)) : convertLogjit (ks ++ rest) d = convertLogjit rest d := by
  induction ks with
  | nil => rfl
  | cons a ks ih =>
    have ha := h a (by simp)
    have ih' := ih (fun k hk => h k (by simp [hk]))
    cases a with
    | inst g r =>
      cases g with
      | logjit => exact absurd ⟨r, rfl⟩ ha
      | _ => exact ih'
    | _ => exact ih'

/-- C93 when no key, or only the last key, begins with `logjit` (missing: every other case, `C93_runtime_violated`): that parameter is replaced by a `jit` parameter with the
exponential of its value and the same flag, everything else is kept. -/
theorem C93_last_partial (d : Dict Key (Parameter ℝ)) :
    ((∀ k ∈ d.keys, ¬ IsLogjit k) → convertLogjit d.keys d = .ok d) ∧
    (∀ ks r, d.keys = ks ++ [.inst .logjit r] → (∀ k ∈ ks, ¬ IsLogjit k) → ∃ q d', d.get? (.inst .logjit r) = some q ∧ convertLogjit d.keys d = .ok d' ∧
      d'.get? (.inst .jit r) = some { value := exp q.value, vary := q.vary } ∧ d'.get? (.inst .logjit r) = none ∧
      ∀ k, k ≠ .inst .jit r → k ≠ .inst .logjit r → d'.get? k = d.get? k) := by
  constructor
  · intro h
    have := convertLogjit_skip d.keys h [] d
    rw [List.append_nil] at this
    rw [this]; rfl
  · intro ks r hk hno
    obtain ⟨q, hq⟩ := Dict.exists_get?_of_mem d (k := .inst .logjit r) (by rw [hk]; simp)
    refine ⟨q, (d.set (.inst .jit r) { value := exp q.value, vary := q.vary }).erase (.inst .logjit r), hq, ?_, ?_, ?_, ?_⟩
    · rw [hk, convertLogjit_skip ks hno]
      unfold convertLogjit
      rw [hq]
    · rw [Dict.get?_erase, if_neg (by simp), Dict.get?_set, if_pos rfl]
    · rw [Dict.get?_erase, if_pos rfl]
    · intro k h1 h2
      rw [Dict.get?_erase, if_neg (Ne.symm h2), Dict.get?_set, if_neg (Ne.symm h1)]

/-- Non-vacuity of `C93_last_partial`: a dictionary whose last key is `logjit_hires`. -/
example : Dict.keys (κ := Key) (ν := Parameter ℝ) [(.dvdt, { value := 0 }), (.inst .logjit "_hires", { value := 1 })] = [.dvdt] ++ [.inst .logjit "_hires"] ∧
    ∀ k ∈ [Key.dvdt], ¬ IsLogjit k := ⟨rfl, by simp [IsLogjit]⟩

/-- C93 is false: if a `logjit` key is followed by any other key, `initialize_posterior` raises `RuntimeError` ("OrderedDict mutated during iteration"). -/
theorem C93_runtime_violated (d : Dict Key (Parameter ℝ)) (ks : List Key) (r : String) (k : Key) (rest : List Key) (hk : d.keys = ks ++ .inst .logjit r :: k :: rest) :
    convertLogjit d.keys d = .error .runtimeError := by
  have key : ∀ ks : List Key, (∀ x ∈ ks, x ∈ d.keys) → (.inst .logjit r) ∈ d.keys → convertLogjit (ks ++ .inst .logjit r :: k :: rest) d = .error .runtimeError := by
    intro ks
    induction ks with
    | nil =>
      intro _ hm
      obtain ⟨q, hq⟩ := Dict.exists_get?_of_mem d hm
      simp only [List.nil_append]
      unfold convertLogjit
      rw [hq]
    | cons a ks ih =>
      intro h1 h2
      have ih' := ih (fun x hx => h1 x (by simp [hx])) h2
      cases a with
      | inst g r' =>
        cases g with
        | logjit =>
          obtain ⟨q, hq⟩ := Dict.exists_get?_of_mem d (h1 (.inst .logjit r') (by simp))
          rw [List.cons_append]
          unfold convertLogjit
          rw [hq]
          cases ks <;> rfl
        | _ => exact ih'
      | _ => exact ih'
  rw [hk]
  apply key ks
  · intro x hx; rw [hk]; simp [hx]
  · rw [hk]; simp

/-- Non-vacuity of `C93_runtime_violated`: two instruments. -/
example : Dict.keys (κ := Key) (ν := Parameter ℝ) [(.inst .gamma "_a", { value := 0 }), (.inst .logjit "_a", { value := 1 }), (.inst .gamma "_b", { value := 0 }), (.inst .logjit "_b", { value := 1 })] =
    [.inst .gamma "_a"] ++ .inst .logjit "_a" :: .inst .gamma "_b" :: [.inst .logjit "_b"] := rfl

end Radvel
