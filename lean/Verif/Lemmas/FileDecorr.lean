import Verif.Spec.FileDecorr
import Verif.Lemmas.FileModel
import Verif.Props.FileModel

/-! Lemmas for C154 with decorrelation. -/

namespace Radvel

/-! ### the state after the loop over instruments -/

/-- The dictionary and the indices after adding the coefficients `cs`. -/
structure CoefState (p : Params ℝ) (cs : List Key) (s : VState ℝ) : Prop where
  params : s.params = { p with items := p.items ++ cs.map fun k => (k, { value := 0 }) }
  idx : ∀ k, s.indices.get? k = if k ∈ cs then some (vectorSize p.items + cs.idxOf k) else (initIndexDict p).get? k

theorem coefState_start {p : Params ℝ} {s : VState ℝ} (hu : UserParams p) (h : VState.init p = .ok s) : CoefState p [] s := by
  obtain ⟨s', a1, -, -, a4, a5⟩ := hu.model
  rw [h] at a1; cases a1
  exact ⟨by rw [a4]; simp, fun k => by rw [a5]; simp⟩

theorem CoefState.keys {p : Params ℝ} {cs : List Key} {s : VState ℝ} (h : CoefState p cs s) : s.params.items.keys = p.items.keys ++ cs := by
  rw [h.params]
  simp [Dict.keys, Function.comp_def]

theorem CoefState.size {p : Params ℝ} {cs : List Key} {s : VState ℝ} (h : CoefState p cs s) (ho : ∀ k ∈ cs, ∃ x, k = .other x) :
    vectorSize s.params.items = vectorSize p.items + cs.length := by
  have e1 : ∀ k, (¬ ∃ x, k = Key.other x) → s.params.items.has k = p.items.has k := by
    intro k hk
    rw [Bool.eq_iff_iff, Dict.has_iff, Dict.has_iff, h.keys, List.mem_append]
    exact ⟨fun h1 => h1.resolve_right fun h2 => hk (ho k h2), .inl⟩
  unfold vectorSize
  rw [e1 .dvdt (by simp), e1 .curv (by simp), h.params]
  simp only [List.length_append, List.length_map]
  omega

theorem addExtra_coef {p : Params ℝ} (hu : UserParams p) {cs : List Key} {s : VState ℝ} (h : CoefState p cs s) (x : String) (hx : Key.other x ∉ cs) :
    ∃ s', addExtra (s, vectorSize p.items + cs.length) (Key.other x) = (s', vectorSize p.items + (cs ++ [Key.other x]).length) ∧ CoefState p (cs ++ [Key.other x]) s' := by
  have h1 : Key.other x ∉ s.params.items.keys := by
    rw [h.keys, List.mem_append, not_or]
    exact ⟨hu.good.noother x, hx⟩
  have h2 : s.indices.get? (.other x) = none := by
    rw [h.idx, if_neg hx, initIndexDict_get p hu.good.nodup]
  have h3 : s.params.items.has (.other x) = false := by
    rw [Bool.eq_false_iff]; intro hc; exact h1 ((Dict.has_iff _ _).1 hc)
  have h4 : s.indices.has (.other x) = false := by simp [Dict.has, h2]
  refine ⟨{ s with params := s.params.setItem (.other x) { value := 0 }, indices := s.indices.set (.other x) (vectorSize p.items + cs.length) }, ?_, ?_, ?_⟩
  · unfold addExtra
    simp only [h3, h4, Bool.false_eq_true, if_false, List.length_append, List.length_singleton]
    rfl
  · simp only [Params.setItem]
    rw [set_at_end _ _ _ h1, h.params]
    simp
  · intro k
    simp only
    rw [Dict.get?_set, h.idx]
    by_cases hk : k = .other x
    · subst hk
      rw [if_pos rfl, if_pos (by simp), List.idxOf_append_of_notMem hx]
      simp
    · rw [if_neg (Ne.symm hk)]
      by_cases hc : k ∈ cs
      · rw [if_pos hc, if_pos (by simp [hc]), List.idxOf_append_of_mem hc]
      · rw [if_neg hc, if_neg (by simp [hc, hk])]

theorem addExtras_coef {p : Params ℝ} (hu : UserParams p) : ∀ (xs : List String) {cs : List Key} {s : VState ℝ}, CoefState p cs s → (cs ++ xs.map Key.other).Nodup →
    ∃ s', (xs.map Key.other).foldl addExtra (s, vectorSize p.items + cs.length) = (s', vectorSize p.items + (cs ++ xs.map Key.other).length) ∧ CoefState p (cs ++ xs.map Key.other) s'
  | [], cs, s, h, _ => ⟨s, by simp, by simpa using h⟩
  | x :: t, cs, s, h, hn => by
    have hx : Key.other x ∉ cs := by
      intro hc
      exact (List.nodup_append.1 hn).2.2 _ hc _ (by simp) rfl
    obtain ⟨s1, a1, a2⟩ := addExtra_coef hu h x hx
    obtain ⟨s2, b1, b2⟩ := addExtras_coef hu t a2 (by simpa using hn)
    refine ⟨s2, ?_, by simpa using b2⟩
    rw [List.map_cons, List.foldl_cons, a1, b1]
    simp

theorem CoefState.indexed {p : Params ℝ} (hu : UserParams p) {cs : List Key} {s : VState ℝ} (h : CoefState p cs s) {k : Key} (hk : k ∈ p.items.keys) : k ∈ s.indices.keys := by
  rw [← Dict.has_iff, Dict.has, h.idx]
  split
  · rfl
  · obtain ⟨b, hb⟩ := List.getElem?_of_mem (mem_fileOrder hu hk)
    rw [fileOrder_index hu b k hb]
    rfl

/-- Making the likelihood of an instrument adds its coefficients. -/
theorem addLikelihood_coef {p : Params ℝ} (hu : UserParams p) {cs : List Key} {s s' : VState ℝ} (h : CoefState p cs s) (hr : s.rows.length = vectorSize p.items + cs.length) (i : String)
    (hg : Key.inst .gamma ("_" ++ i) ∈ p.items.keys) (hj : Key.inst .jit ("_" ++ i) ∈ p.items.keys) (xs : List String) (hn : (cs ++ xs.map Key.other).Nodup)
    (hs : s.addLikelihood [.inst .gamma ("_" ++ i), .inst .jit ("_" ++ i)] (xs.map Key.other) = .ok s') : CoefState p (cs ++ xs.map Key.other) s' := by
  have hm : ∀ k ∈ p.items.keys, k ∈ s.params.items.keys := fun k hk => by rw [h.keys]; exact List.mem_append_left _ hk
  obtain ⟨s1, a1, a2⟩ := addExtras_coef hu xs h hn
  have e : ([Key.inst .gamma ("_" ++ i), .inst .jit ("_" ++ i)] ++ xs.map Key.other).foldl addExtra (s, s.rows.length) = (s1, vectorSize p.items + (cs ++ xs.map Key.other).length) := by
    rw [List.foldl_append, List.foldl_cons, List.foldl_cons, List.foldl_nil, addExtra_same (hm _ hg) (h.indexed hu hg), addExtra_same (hm _ hj) (h.indexed hu hj), hr, a1]
  unfold VState.addLikelihood at hs
  simp only [e] at hs
  rcases h2 : s1.dictToVector with er | s2
  · rw [h2] at hs; cases hs
  · rw [h2] at hs
    obtain ⟨c1, c2⟩ := vectorNames_indices _ _ hs
    obtain ⟨c3, c4⟩ := dictToVector_indices _ _ h2
    exact ⟨by rw [c2, c4]; exact a2.params, fun k => by rw [c1, c3]; exact a2.idx k⟩

theorem Fresh.size {s : VState ℝ} (h : Fresh s) : s.rows.length = vectorSize s.params.items := by
  have := h.inv.count
  rw [h.ui] at this
  simpa using this

/-- A likelihood of the file with decorrelation. -/
structure DecorrLike (P : SetupFile) (vars : List String) (i : String) (L : RVLike) : Prop where
  obs : L.obs = (P.rowsOf i).map DataRow.obs
  suffix : L.suffix = "_" ++ i
  params : L.decParams = vars.map (decorrName ("_" ++ i))
  vars : L.decVars = vars.map String.toList

theorem coefKey_eq (i d : String) : coefKey i d = .other (decorrName ("_" ++ i) d) := rfl

theorem coefKeys_append (a b vars : List String) : coefKeys (a ++ b) vars = coefKeys a vars ++ coefKeys b vars := by
  unfold coefKeys; rw [List.flatMap_append]

theorem coefKeys_single (i : String) (vars : List String) : coefKeys [i] vars = (vars.map (decorrName ("_" ++ i))).map Key.other := by
  simp [coefKeys, coefKey_eq, Function.comp_def]

theorem coefKeys_other {insts vars : List String} {k : Key} (h : k ∈ coefKeys insts vars) : ∃ x, k = .other x := by
  simp only [coefKeys, List.mem_flatMap, List.mem_map] at h
  obtain ⟨i, _, d, _, rfl⟩ := h
  exact ⟨_, rfl⟩

theorem coefKey_inj {vars : List String} (hU : ∀ d ∈ vars, '_' ∉ d.toList) {i j d e : String} (hd : d ∈ vars) (he : e ∈ vars) (h : coefKey i d = coefKey j e) : i = j ∧ d = e := by
  rw [coefKey_eq, coefKey_eq] at h
  have h1 : decorrName ("_" ++ i) d = decorrName ("_" ++ j) e := by simpa using h
  have h2 : d.toList = e.toList := by
    have a := splitU_decorrName ("_" ++ i) d (hU d hd) (.inr ⟨i.toList, by simp⟩)
    have b := splitU_decorrName ("_" ++ j) e (hU e he) (.inr ⟨j.toList, by simp⟩)
    rw [h1, b] at a
    exact (Option.some.inj a).symm
  have h3 : d = e := String.toList_inj.1 h2
  subst h3
  have h4 := congrArg String.toList h1
  rw [decorrName_toList, decorrName_toList] at h4
  simp at h4
  exact ⟨String.toList_inj.1 h4, rfl⟩

theorem coefKeys_nodup {insts vars : List String} (hi : insts.Nodup) (hn : vars.Nodup) (hU : ∀ d ∈ vars, '_' ∉ d.toList) : (coefKeys insts vars).Nodup := by
  unfold coefKeys
  rw [List.nodup_flatMap]
  refine ⟨fun i _ => ?_, ?_⟩
  · exact (List.nodup_map_iff_inj_on hn).2 fun d hd e he h => (coefKey_inj hU hd he h).2
  · refine hi.imp ?_
    intro i j hij k hk hk'
    obtain ⟨d, hd, rfl⟩ := List.mem_map.1 hk
    obtain ⟨e, he, h⟩ := List.mem_map.1 hk'
    exact hij (coefKey_inj hU he hd h).1.symm

/-- The loop over the instruments. -/
theorem instLoop_coef {dflt : ℝ} {P : SetupFile} {vars : List String} (hu : UserParams P.params) (hh : P.hnames = none) :
    ∀ (l done : List String) (acc r : VState ℝ × Dict String InstLike) (Ls : List RVLike), l.foldlM (P.addInst vars (copyParams dflt P.params)) acc = .ok r →
      (done ++ l).Nodup → (coefKeys (done ++ l) vars).Nodup →
      CoefState P.params (coefKeys done vars) acc.1 → SetupInv P.params.items vars done acc.1 → Likes acc.1 Ls →
      acc.2.map Prod.fst = done → acc.2.map Prod.snd = Ls.map InstLike.rv → List.Forall₂ (DecorrLike P vars) done Ls →
      ∃ Ms, CoefState P.params (coefKeys (done ++ l) vars) r.1 ∧ SetupInv P.params.items vars (done ++ l) r.1 ∧ Likes r.1 Ms ∧ r.2.map Prod.snd = Ms.map InstLike.rv ∧
        List.Forall₂ (DecorrLike P vars) (done ++ l) Ms ∧ ∀ i ∈ l, (∃ d ∈ P.data, d.tel = i) ∧ Key.inst .gamma ("_" ++ i) ∈ P.params.items.keys ∧ Key.inst .jit ("_" ++ i) ∈ P.params.items.keys := by
  intro l
  induction l with
  | nil =>
    intro done acc r Ls h _ _ h1 h2 h3 _ h5 h6
    cases h
    exact ⟨Ls, by simpa using h1, by simpa using h2, h3, h5, by simpa using h6, by simp⟩
  | cons a t ih =>
    intro done acc r Ls h hnd hcd h1 h2 h3 h4 h5 h6
    change (P.addInst vars (copyParams dflt P.params) acc a >>= _) = _ at h
    rcases e1 : P.addInst vars (copyParams dflt P.params) acc a with e | acc'
    · rw [e1] at h; cases h
    · rw [e1] at h
      change t.foldlM _ acc' = _ at h
      obtain ⟨k0, k1, k2, -⟩ := addInst_needs dflt hu.good.nodup e1
      obtain ⟨-, -, s1, M, s2, b1, b2, b3, b4⟩ := addInst_inv e1
      obtain ⟨s', L, c1, c2, c3, c4, c5, c6, -, -⟩ := h2.rv ((P.rowsOf a).map DataRow.obs) a k1 k2 vars (fun d hd => hd) (vars.map String.toList)
      unfold SetupFile.newLike at b1
      simp only [hh, c1] at b1
      simp only [Except.ok.injEq, Prod.mk.injEq] at b1
      obtain ⟨rfl, rfl⟩ := b1
      rw [resetPar_same c2 hu.good.nodup, if_pos k1] at b2
      cases b2
      rw [resetPar_same c2 hu.good.nodup, if_pos k2] at b3
      have b3' := Except.ok.inj b3
      have hassoc : done ++ [a] ++ t = done ++ a :: t := by simp
      have hsz : acc.1.rows.length = vectorSize P.params.items + (coefKeys done vars).length := by
        rw [h2.fresh.size, h1.size fun k hk => coefKeys_other hk]
      have hal := (RVLike.new_inv c1).1
      have hcs := addLikelihood_coef hu h1 hsz a k1 k2 (vars.map (decorrName ("_" ++ a))) (by
        rw [← coefKeys_single, ← coefKeys_append]
        rw [← hassoc, coefKeys_append] at hcd
        exact (List.nodup_append.1 hcd).1) hal
      rw [← coefKeys_single, ← coefKeys_append] at hcs
      have hkeys : acc'.2 = acc.2 ++ [(a, InstLike.rv L)] := by
        rw [b4]
        have hno : a ∉ acc.2.keys := by
          show a ∉ acc.2.map Prod.fst
          rw [h4]
          intro hc
          exact (List.nodup_append.1 hnd).2.2 _ hc _ (by simp) rfl
        clear * - hno
        generalize acc.2 = e at hno
        induction e with
        | nil => rfl
        | cons x u ih =>
          simp only [Dict.keys, List.map_cons, List.mem_cons, not_or] at hno
          unfold Dict.set
          rw [if_neg (Ne.symm hno.1), ih hno.2]
          rfl
      obtain ⟨Ms, d1, d2, d3, d4, d5, d6⟩ := ih (done ++ [a]) acc' r (Ls ++ [L]) h (by rw [hassoc]; exact hnd) (by rw [hassoc]; exact hcd) (by rw [← b3']; exact hcs) (by rw [← b3']; exact c2)
        (by rw [← b3']; exact .like _ _ _ _ h3 _ _ _ _ c1) (by rw [hkeys]; simp [h4]) (by rw [hkeys]; simp [h5]) (List.rel_append h6 (.cons ⟨c3, c4, c5, c6⟩ .nil))
      rw [hassoc] at d1 d2 d5
      refine ⟨Ms, d1, d2, d3, d4, d5, fun i hi => ?_⟩
      rcases List.mem_cons.1 hi with rfl | hi
      · exact ⟨k0, k1, k2⟩
      · exact d6 i hi

/-- What `initialize` makes of a file without GPs, with decorrelation. -/
theorem initialize_decorr {dflt : ℝ} {P : SetupFile} (hu : UserParams P.params) (hj : ∀ k, Key.inst .logjit k ∉ P.params.items.keys) (hh : P.hnames = none) {vars : List String}
    (hv : P.decorrVars = some vars) (hi : P.instnames.Nodup) (hc : CleanVars P.instnames vars) {r : SetupPost} (h : P.initialize dflt true = .ok r) :
    CoefState P.params (coefKeys P.instnames vars) r.st ∧ Fresh r.st ∧
      (∀ i ∈ P.instnames, (∃ d ∈ P.data, d.tel = i) ∧ Key.inst .gamma ("_" ++ i) ∈ P.params.items.keys ∧ Key.inst .jit ("_" ++ i) ∈ P.params.items.keys) ∧
      ∃ Ls : List RVLike, r.likes.map Prod.snd = Ls.map InstLike.rv ∧ List.Forall₂ (DecorrLike P vars) P.instnames Ls ∧ Likes r.st Ls := by
  obtain ⟨-, vars', items, s, hv', hi', hs, hl, -⟩ := initialize_inv h
  rw [convertLogjit_none _ _ hj] at hi'
  cases hi'
  simp only [SetupFile.decorr, if_true, hv] at hv'
  cases hv'
  obtain ⟨Ms, d1, d2, d3, d4, d5, d6⟩ := instLoop_coef hu hh P.instnames [] (s, []) _ [] hl (by simpa using hi) (by simpa using coefKeys_nodup hi hc.nodup hc.noU)
    (by simpa [coefKeys] using coefState_start hu hs) (start_inv hu vars hs) (.start _ (.model _ _ hu hs)) rfl rfl .nil
  exact ⟨d1, d2.fresh, d6, Ms, d4, d5, d3⟩

/-! ### the rows -/

theorem coef_row_zero : mkRow ({ value := 0 } : Parameter ℝ) = { value := 0, vary := true, scale := 0, linear := false } := rfl

/-- The rows of the state: those of the file, then the coefficients. -/
theorem decorr_rows {p : Params ℝ} (hu : UserParams p) {cs : List Key} (hn : cs.Nodup) (ho : ∀ k ∈ cs, ∃ x, k = .other x) {s s0 : VState ℝ} (h : CoefState p cs s) (hf : Fresh s)
    (h0 : VState.init p = .ok s0) : s.rows = s0.rows ++ cs.map fun _ => ({ value := 0, vary := true, scale := 0, linear := false } : Row ℝ) := by
  obtain ⟨r1, r2⟩ := file_rows hu h0
  have hl : s.rows.length = (fileOrder p).length + cs.length := by rw [hf.size, h.size ho, fileOrder_length hu]
  apply List.ext_getElem?
  intro a
  by_cases ha : a < (fileOrder p).length
  · rw [List.getElem?_append_left (by rw [r1]; exact ha)]
    have hk := List.getElem?_eq_getElem ha
    generalize (fileOrder p)[a] = k at hk
    rw [r2 a k hk]
    have hi := fileOrder_index hu a k hk
    have hnot : ∀ k, (initIndexDict p).get? k = some a → k ∉ cs := by
      intro k hi hc
      obtain ⟨x, rfl⟩ := ho k hc
      rw [initIndexDict_get p hu.good.nodup] at hi
      cases hi
    have hnc := hnot k hi
    rcases hq : p.items.get? k with _ | q
    · simp only
      apply hf.blank
      · omega
      · intro k' hk' he
        rw [h.idx] at he
        by_cases hc : k' ∈ cs
        · rw [if_pos hc] at he
          simp only [Option.some.injEq] at he
          rw [← fileOrder_length hu] at he
          omega
        · rw [if_neg hc] at he
          rw [h.keys, List.mem_append] at hk'
          have hk' := hk'.resolve_right hc
          obtain ⟨b, hb⟩ := List.getElem?_of_mem (mem_fileOrder hu hk')
          have := fileOrder_index hu b k' hb
          rw [he] at this
          cases this
          rw [hk] at hb
          cases hb
          exact (Dict.get?_eq_none_iff _ _).1 hq hk'
    · simp only
      refine hf.rows k q a ?_ (by rw [h.idx, if_neg hnc, hi])
      refine Dict.get?_of_mem_nodup _ hf.inv.nodup ?_
      rw [h.params]
      exact List.mem_append_left _ (Dict.mem_of_get? _ hq)
  · by_cases hb : a < s.rows.length
    · rw [List.getElem?_append_right (by rw [r1]; omega), r1]
      have hlt : a - (fileOrder p).length < cs.length := by omega
      rw [List.getElem?_map, List.getElem?_eq_getElem hlt]
      simp only [Option.map_some]
      rw [← coef_row_zero]
      refine hf.rows cs[a - (fileOrder p).length] _ a ?_ ?_
      · refine Dict.get?_of_mem_nodup _ hf.inv.nodup ?_
        rw [h.params]
        exact List.mem_append_right _ (List.mem_map.2 ⟨_, List.getElem_mem _, rfl⟩)
      · rw [h.idx, if_pos (List.getElem_mem _), hn.idxOf_getElem, ← fileOrder_length hu]
        congr 1
        omega
    · rw [List.getElem?_eq_none (by omega), List.getElem?_eq_none (by simp [r1]; omega)]

theorem freeRows_append (a b : List (Row ℝ)) (hb : ∀ r ∈ b, r.vary = true) : freeRows (a ++ b) = freeRows a ++ (List.range b.length).map (a.length + ·) := by
  unfold freeRows
  rw [List.length_append, List.range_add, List.filter_append]
  congr 1
  · apply List.filter_congr
    intro i hi
    rw [List.getElem?_append_left (List.mem_range.1 hi)]
  · rw [List.filter_eq_self]
    intro i hi
    obtain ⟨j, hj, rfl⟩ := List.mem_map.1 hi
    have hj := List.mem_range.1 hj
    rw [List.getElem?_append_right (by omega)]
    simp [hj, hb b[j] (List.getElem_mem _)]

theorem writeVals_left {is js : List Nat} {xs ys : List ℝ} {a b c : List (Row ℝ)} (h : writeVals is xs a = (c, none)) :
    writeVals (is ++ js) (xs ++ ys) (a ++ b) = writeVals js ys (c ++ b) := by
  induction is generalizing xs a with
  | nil =>
    cases xs with
    | nil => cases h; rfl
    | cons x t => cases h
  | cons i t ih =>
    cases xs with
    | nil => cases h
    | cons x u =>
      unfold writeVals at h
      rcases hr : a[i]? with _ | r
      · rw [hr] at h; cases h
      · rw [hr] at h
        simp only at h
        have hlt := (List.getElem?_eq_some_iff.1 hr).1
        rw [List.cons_append, List.cons_append]
        conv_lhs => unfold writeVals
        rw [List.getElem?_append_left hlt, hr]
        simp only
        rw [List.set_append_left _ _ hlt]
        exact ih h

theorem writeVals_right (ys : List ℝ) : ∀ (a : List (Row ℝ)), writeVals ((List.range ys.length).map (a.length + ·)) ys (a ++ ys.map fun _ => ({ value := 0, vary := true, scale := 0, linear := false } : Row ℝ)) =
    (a ++ ys.map fun y => { value := y, vary := true, scale := 0, linear := false }, none) := by
  induction ys with
  | nil => intro a; rfl
  | cons y t ih =>
    intro a
    rw [List.length_cons, List.range_succ_eq_map, List.map_cons, List.map_cons, List.map_cons]
    unfold writeVals
    rw [List.getElem?_append_right (by omega)]
    simp only [Nat.add_zero, Nat.sub_self, List.getElem?_cons_zero]
    rw [List.set_append_right _ _ (by omega)]
    simp only [Nat.sub_self, List.set_cons_zero]
    have := ih (a ++ [{ value := y, vary := true, scale := 0, linear := false }])
    simp only [List.length_append, List.length_singleton, List.append_assoc, List.singleton_append] at this
    rw [← this]
    congr 1
    rw [List.map_map]
    apply List.map_congr_left
    intro j _
    simp only [Function.comp]
    omega

/-! ### states with more rows -/

/-- `t` has the rows and indices of `s`, and possibly more. -/
structure Extends (s t : VState ℝ) : Prop where
  rows : ∃ e, t.rows = s.rows ++ e
  indices : ∀ k i, s.indices.get? k = some i → t.indices.get? k = some i
  basis : t.params.basis = s.params.basis
  planets : t.params.numPlanets = s.params.numPlanets

theorem Extends.row {s t : VState ℝ} (h : Extends s t) {i : Nat} {r : Row ℝ} (hr : s.rows[i]? = some r) : t.rows[i]? = some r := by
  obtain ⟨e, he⟩ := h.rows
  rw [he, List.getElem?_append_left (List.getElem?_eq_some_iff.1 hr).1, hr]

theorem Extends.read {s t : VState ℝ} (h : Extends s t) {k : Key} {x : ℝ} (hx : readPar s k = .ok x) : readPar t k = .ok x := by
  unfold readPar at hx ⊢
  rcases hi : s.indices.get? k with _ | i
  · rw [hi] at hx; cases hx
  · rw [hi] at hx
    simp only at hx
    rcases hr : s.rows[i]? with _ | r
    · rw [hr] at hx; cases hx
    · rw [hr] at hx
      rw [h.indices k i hi]
      simp only [h.row hr]
      exact hx

theorem convBlock_more {f : Block → Block} {flags : List Nat} {flag : Bool} {i : Nat} {a c : List (Row ℝ)} (b : List (Row ℝ)) (h : convBlock f flags flag a i = .ok c) :
    convBlock f flags flag (a ++ b) i = .ok (c ++ b) := by
  unfold convBlock at h ⊢
  split at h
  · next r0 r1 r2 r3 r4 e0 e1 e2 e3 e4 =>
    cases h
    have l0 := (List.getElem?_eq_some_iff.1 e0).1
    have l1 := (List.getElem?_eq_some_iff.1 e1).1
    have l2 := (List.getElem?_eq_some_iff.1 e2).1
    have l3 := (List.getElem?_eq_some_iff.1 e3).1
    have l4 := (List.getElem?_eq_some_iff.1 e4).1
    rw [List.getElem?_append_left l0, List.getElem?_append_left l1, List.getElem?_append_left l2, List.getElem?_append_left l3, List.getElem?_append_left l4, e0, e1, e2, e3, e4]
    simp only
    rw [List.set_append_left _ _ l0, List.set_append_left _ _ (by simpa using l1), List.set_append_left _ _ (by simpa using l2), List.set_append_left _ _ (by simpa using l3),
      List.set_append_left _ _ (by simpa using l4)]
  · cases h

theorem vToSynth_more {bn : BasisName} {N : Nat} {a c : List (Row ℝ)} (b : List (Row ℝ)) (h : vToSynth bn N a = .ok c) : vToSynth bn N (a ++ b) = .ok (c ++ b) := by
  unfold vToSynth at h ⊢
  split at h
  · next hb => rw [if_pos hb]; cases h; rfl
  · next hb =>
    rw [if_neg hb]
    generalize List.range N = l at h
    induction l generalizing a with
    | nil => cases h; rfl
    | cons i t ih =>
      rw [List.foldlM_cons] at h ⊢
      rcases e : convBlock (vToSynthBlock bn) (vToSynthFlags bn) false a i with er | a'
      · rw [e] at h; cases h
      · rw [e] at h
        rw [convBlock_more b e]
        exact ih h

theorem addPlanets_more {drive : Drive} {t : ℝ} {a : List (Row ℝ)} (b : List (Row ℝ)) : ∀ (is : List Nat) (v : Option ℝ) (w : Option ℝ), is.foldlM (addPlanet drive t a) v = .ok w →
    is.foldlM (addPlanet drive t (a ++ b)) v = .ok w
  | [], v, w, h => h
  | i :: l, v, w, h => by
    rw [List.foldlM_cons] at h ⊢
    rcases e : addPlanet drive t a v i with er | v'
    · rw [e] at h; cases h
    · rw [e] at h
      have : addPlanet drive t (a ++ b) v i = .ok v' := by
        unfold addPlanet at e ⊢
        split at e
        · next r0 r1 r2 r3 r4 e0 e1 e2 e3 e4 =>
          rw [List.getElem?_append_left (List.getElem?_eq_some_iff.1 e0).1, List.getElem?_append_left (List.getElem?_eq_some_iff.1 e1).1,
            List.getElem?_append_left (List.getElem?_eq_some_iff.1 e2).1, List.getElem?_append_left (List.getElem?_eq_some_iff.1 e3).1,
            List.getElem?_append_left (List.getElem?_eq_some_iff.1 e4).1, e0, e1, e2, e3, e4]
          exact e
        · cases e
      rw [this]
      exact addPlanets_more b l v' w h

theorem trendCoef_more {s t : VState ℝ} (h : Extends s t) {k : Key} {x : ℝ} (hx : trendCoef s k = .ok x) : trendCoef t k = .ok x := by
  unfold trendCoef at hx ⊢
  rcases hi : s.indices.get? k with _ | i
  · rw [hi] at hx; cases hx
  · rw [hi] at hx
    simp only at hx
    rcases hr : s.rows[i]? with _ | r
    · rw [hr] at hx; cases hx
    · rw [hr] at hx
      rw [h.indices k i hi]
      simp only [h.row hr]
      exact hx

theorem modelCall_more {drive : Drive} {tb : ℝ} {s t : VState ℝ} (h : Extends s t) {x : ℝ} {w : Option ℝ} (hw : modelCall drive tb s none x = .ok w) : modelCall drive tb t none x = .ok w := by
  obtain ⟨e, he⟩ := h.rows
  unfold modelCall standardRvCalc at hw ⊢
  rw [h.basis, h.planets, he]
  rcases h1 : vToSynth s.params.basis s.params.numPlanets s.rows with er | q
  · rw [h1] at hw; cases hw
  · rw [vToSynth_more e h1]
    rw [h1] at hw
    simp only [bind, Except.bind] at hw ⊢
    rcases h2 : (List.range s.params.numPlanets).foldlM (addPlanet drive x q) (some 0) with er | v
    · rw [h2] at hw; cases hw
    · rw [addPlanets_more e _ _ _ h2]
      rw [h2] at hw
      simp only at hw ⊢
      rcases h3 : trendCoef s .dvdt with er | d
      · rw [h3] at hw; cases hw
      · rw [trendCoef_more h h3]
        rw [h3] at hw
        simp only at hw ⊢
        rcases h4 : trendCoef s .curv with er | d
        · rw [h4] at hw; cases hw
        · rw [trendCoef_more h h4]
          rw [h4] at hw
          exact hw

theorem readPar_orb_more {s t : VState ℝ} (hs : Fresh s) (h : Extends s t) (p : PName) (n : Nat) (h1 : 1 ≤ n) (h2 : n ≤ s.params.numPlanets) :
    readPar t (.orb p n) = readPar s (.orb p n) := by
  have hi := hs.inv.orbIdx p n h1 h2
  have hlt : 5 * (n - 1) + p.offset < s.rows.length := by
    have := p.offset_lt
    have := hs.inv.size
    omega
  have : readPar s (.orb p n) = .ok (s.rows[5 * (n - 1) + p.offset]).value := by
    unfold readPar
    rw [hi]
    simp only [List.getElem?_eq_getElem hlt]
  rw [this]
  exact h.read this

theorem eccLoop_more {s t : VState ℝ} (hs : Fresh s) (h : Extends s t) (fin : Bool) : ∀ (l : List (Nat × ℝ)), (∀ q ∈ l, 1 ≤ q.1 ∧ q.1 ≤ s.params.numPlanets) → eccLoop t fin l = eccLoop s fin l
  | [], _ => rfl
  | (n, lim) :: l, hp => by
    have := hp (n, lim) (by simp)
    have he : eccOf t n = eccOf s n := by
      unfold eccOf
      simp only [h.basis, readPar_orb_more hs h _ n this.1 this.2]
    unfold eccLoop
    rw [he, eccLoop_more hs h fin l (fun q hq => hp q (List.mem_cons_of_mem _ hq))]

theorem posKLoop_more {s t : VState ℝ} (hs : Fresh s) (h : Extends s t) (fin : Bool) : ∀ (l : List Nat), (∀ n ∈ l, 1 ≤ n ∧ n ≤ s.params.numPlanets) → posKLoop t fin l = posKLoop s fin l
  | [], _ => rfl
  | n :: l, hp => by
    have := hp n (by simp)
    unfold posKLoop ampOf
    rw [readPar_orb_more hs h _ n this.1 this.2, readPar_orb_more hs h _ n this.1 this.2, posKLoop_more hs h fin l (fun q hq => hp q (List.mem_cons_of_mem _ hq))]

theorem synthRow_more {a : List (Row ℝ)} (b : List (Row ℝ)) {n j : Nat} {x : ℝ} (h : synthRow a n j = .ok x) : synthRow (a ++ b) n j = .ok x := by
  unfold synthRow at h ⊢
  split at h
  · next r hr => rw [List.getElem?_append_left (List.getElem?_eq_some_iff.1 hr).1, hr]; exact h
  · cases h

theorem secEclipse_more {s t : VState ℝ} (h : Extends s t) {n : Nat} {ts err : ℝ} {w : Fl} (hw : secEclipseCall n ts err s = .ok w) : secEclipseCall n ts err t = .ok w := by
  obtain ⟨e, he⟩ := h.rows
  unfold secEclipseCall tToPhaseVector at hw ⊢
  rw [h.basis, h.planets, he]
  rcases h1 : vToSynth s.params.basis s.params.numPlanets s.rows with er | q
  · rw [h1] at hw; cases hw
  · rw [vToSynth_more e h1]
    rw [h1] at hw
    simp only [bind, Except.bind] at hw ⊢
    rcases h2 : synthRow q n 1 with er | x1
    · rw [h2] at hw; cases hw
    rcases h3 : synthRow q n 0 with er | x0
    · rw [h2, h3] at hw; cases hw
    rcases h4 : synthRow q n 2 with er | x2
    · rw [h2, h3, h4] at hw; cases hw
    rcases h5 : synthRow q n 3 with er | x3
    · rw [h2, h3, h4, h5] at hw; cases hw
    rw [synthRow_more e h2, synthRow_more e h3, synthRow_more e h4, synthRow_more e h5]
    rw [h2, h3, h4, h5] at hw
    exact hw

/-- A prior on parameters of the smaller state has the same value in the larger one. -/
theorem prior_more {s t : VState ℝ} (hs : Fresh s) (h : Extends s t) (p : Prior) (hk : ∀ k ∈ p.keys, ∃ x, readPar s k = .ok x) (hp : ∀ n ∈ p.planets, 1 ≤ n ∧ n ≤ s.params.numPlanets) {w : Fl}
    (hw : p.call s none = .ok w) : p.call t none = .ok w := by
  have hr : ∀ k ∈ p.keys, readPar t k = readPar s k := by
    intro k hk'
    obtain ⟨x, hx⟩ := hk k hk'
    rw [hx]; exact h.read hx
  by_cases hsec : ∃ n ts err, p = .secEclipse n ts err
  · obtain ⟨n, ts, err, rfl⟩ := hsec
    simp only [Prior.call, Option.isSome_none, Bool.false_and, Bool.false_eq_true, if_false] at hw ⊢
    exact secEclipse_more h hw
  · rw [← hw]
    unfold Prior.call
    simp only [Option.isSome_none, Bool.false_and, Bool.false_eq_true, if_false]
    cases p with
    | ecc pairs =>
      simp only [eccCall]
      rw [eccLoop_more hs h _ pairs (fun q hq => hp q.1 (List.mem_map_of_mem hq))]
    | posK n => exact posKLoop_more hs h _ _ hp
    | secEclipse n ts err => exact absurd ⟨_, _, _, rfl⟩ hsec
    | numerical ks f inv => simp only; rw [readPars_congr ks hr]
    | user ks f inv => simp only; rw [readPars_congr ks hr]
    | gaussian k _ _ => simp only; rw [hr k (by simp [Prior.keys])]
    | hardBounds k _ _ => simp only; rw [hr k (by simp [Prior.keys])]
    | jeffreys k _ _ => simp only; rw [hr k (by simp [Prior.keys])]
    | modJeffreys k _ _ _ => simp only; rw [hr k (by simp [Prior.keys])]
    | baseline k _ _ => simp only; rw [hr k (by simp [Prior.keys])]

end Radvel
