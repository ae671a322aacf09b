import Verif.Spec.Print
import Verif.Lemmas.FileModel
import Verif.Lemmas.PostFit
import Verif.Lemmas.Report
import Verif.Spec.GP

/-! Lemmas for C156. -/

namespace Radvel

theorem printsTime_iff (k : Key) (hk : ∀ t, k ≠ .other t) : printsTime k = true ↔ ∃ n, k = .orb .tc n ∨ k = .orb .tp n := by
  cases k with
  | orb p n => cases p <;> simp [printsTime, Key.render, PName.chars, List.isPrefixOf]
  | dvdt => simp [printsTime, Key.render, List.isPrefixOf]
  | curv => simp [printsTime, Key.render, List.isPrefixOf]
  | inst g r => cases g <;> simp [printsTime, Key.render, InstKind.chars, List.isPrefixOf]
  | other t => exact absurd rfl (hk t)

theorem printed_shown (tb : ℝ) (k : Key) (v : ℝ) : Shown tb k v (printedValue tb k v) := by
  unfold printedValue
  refine ⟨fun n hk hv => ?_, fun hv => ?_, fun hk ho => ?_⟩
  · have : printsTime k = true := (printsTime_iff k (by rcases hk with rfl | rfl <;> intro t ht <;> cases ht)).2 ⟨n, hk⟩
    rw [if_pos ⟨this, by norm_num; exact hv⟩]
  · rw [if_neg]
    rintro ⟨_, h⟩
    norm_num at h
    linarith
  · rw [if_neg]
    rintro ⟨h, _⟩
    obtain ⟨n, h⟩ := (printsTime_iff k ho).1 h
    rcases h with h | h
    · exact (hk n).1 h
    · exact (hk n).2 h

theorem printLine_err (tb : ℝ) (u : Option (Dict Key ℝ)) (x : Key × Parameter ℝ) : ShownErr u x.1 (printLine tb u x).err := by
  unfold ShownErr printLine
  cases u with
  | none => rfl
  | some u => cases h : u.get? x.1 <;> simp [h]

/-! ### words -/

theorem splitWordsAux_close {cur : Text} (hc : cur ≠ []) {c : Char} (h : isSpace c = true) (t : Text) : splitWordsAux cur (c :: t) = cur :: splitWordsAux [] t := by
  rw [splitWordsAux, if_pos h, if_neg hc]

theorem splitWordsAux_skip {c : Char} (h : isSpace c = true) (t : Text) : splitWordsAux [] (c :: t) = splitWordsAux [] t := by
  rw [splitWordsAux, if_pos h, if_pos rfl]

theorem splitWordsAux_blanks (n : Nat) (t : Text) : splitWordsAux [] (List.replicate n ' ' ++ t) = splitWordsAux [] t := by
  induction n with
  | zero => rfl
  | succ n ih => rw [List.replicate_succ, List.cons_append, splitWordsAux_skip (by decide), ih]

/-! ### the vector is not changed -/

theorem decorrStep_same {s s' : VState ℝ} (h : SameVector s s') (L : RVLike) : L.decorrStep s' = L.decorrStep s := by
  funext res n
  have : ∀ var, L.pars s' var = L.pars s var := fun var => by unfold RVLike.pars; rw [readPars_same h]
  unfold RVLike.decorrStep
  simp only [this]

theorem readRow_same {s s' : VState ℝ} (h : SameVector s s') (i : Nat) : readRow s' i = readRow s i := by
  unfold readRow
  rw [h.rows]

theorem points_same {mod : Curve} (hmod : mod.DictFree) {s s' : VState ℝ} (h : SameVector s s') (L : RVLike) : L.points mod s' = L.points mod s := by
  have : ∀ t, mod s' t = mod s t := hmod s s' h.rows h.indices h.basis h.planets
  unfold RVLike.points
  simp only [this]

/-- Two evaluations with the same outcome. -/
def SameOutcome {α : Type} (a b : Except PyErr (VState ℝ × α)) : Prop :=
  (∃ e, a = .error e ∧ b = .error e) ∨ ∃ t t' r, a = .ok (t, r) ∧ b = .ok (t', r) ∧ SameVector t t'

theorem residuals_same {mod : Curve} (hmod : mod.DictFree) {s s' : VState ℝ} (h : SameVector s s') (L : RVLike) : SameOutcome (L.residuals mod s) (L.residuals mod s') := by
  unfold RVLike.residuals
  rw [points_same hmod h, readRow_same h, readRow_same h]
  rcases L.points mod s with e | pts
  · exact .inl ⟨e, rfl, rfl⟩
  rcases readRow s L.gammaIdx with e | g
  · exact .inl ⟨e, rfl, rfl⟩
  rcases readRow s L.jitIdx with e | j
  · exact .inl ⟨e, rfl, rfl⟩
  simp only [bind, Except.bind]
  by_cases hg : g.analytic = true
  · simp only [hg, if_true]
    have h2 : SameVector { s with rows := s.rows.set L.gammaIdx { g with value := weightedOffset pts j.value } } { s' with rows := s'.rows.set L.gammaIdx { g with value := weightedOffset pts j.value } } :=
      ⟨by simp only [h.rows], h.indices, h.basis, h.planets⟩
    rw [decorrStep_same h2]
    rcases List.foldlM (L.decorrStep { s with rows := s.rows.set L.gammaIdx { g with value := weightedOffset pts j.value } }) _ L.decParams with e | res
    · exact .inl ⟨e, rfl, rfl⟩
    · exact .inr ⟨_, _, _, rfl, rfl, h2⟩
  · simp only [hg]
    simp only [Bool.false_eq_true, if_false]
    rw [decorrStep_same h]
    rcases List.foldlM (L.decorrStep s) _ L.decParams with e | res
    · exact .inl ⟨e, rfl, rfl⟩
    · exact .inr ⟨_, _, _, rfl, rfl, h⟩

theorem logprob_same {mod : Curve} (hmod : mod.DictFree) {s s' : VState ℝ} (h : SameVector s s') (L : RVLike) : SameOutcome (L.logprob mod s) (L.logprob mod s') := by
  unfold RVLike.logprob
  rw [readRow_same h]
  rcases readRow s L.jitIdx with e | j
  · exact .inl ⟨e, rfl, rfl⟩
  rcases residuals_same hmod h L with ⟨e, h1, h2⟩ | ⟨t, t', r, h1, h2, h3⟩
  · rw [h1, h2]; exact .inl ⟨e, rfl, rfl⟩
  rw [h1, h2]
  simp only [bind, Except.bind]
  rw [readRow_same h3]
  rcases readRow t L.gammaIdx with e | g
  · exact .inl ⟨e, rfl, rfl⟩
  · exact .inr ⟨_, _, _, rfl, rfl, h3⟩

theorem composite_same {mod : Curve} (hmod : mod.DictFree) : ∀ (Ls : List RVLike) {s s' : VState ℝ} (a : Fl), SameVector s s' →
    SameOutcome ((Ls.map fun L => L.logprob mod).foldlM compositeStep (s, a)) ((Ls.map fun L => L.logprob mod).foldlM compositeStep (s', a))
  | [], s, s', a, h => .inr ⟨s, s', a, rfl, rfl, h⟩
  | L :: Ls, s, s', a, h => by
    have hL := logprob_same hmod h L
    show SameOutcome (compositeStep (s, a) (L.logprob mod) >>= _) (compositeStep (s', a) (L.logprob mod) >>= _)
    unfold compositeStep
    rcases hL with ⟨e, h1, h2⟩ | ⟨t, t', r, h1, h2, h3⟩
    · simp only [h1, h2]; exact .inl ⟨e, rfl, rfl⟩
    · simp only [h1, h2]
      exact composite_same hmod Ls (a + r) h3

/-- The likelihood reads the vector only. -/
def LikeEval.VectorOnly (like : LikeEval) : Prop := ∀ s s', SameVector s s' → SameOutcome (like s) (like s')

theorem composite_vectorOnly {mod : Curve} (hmod : mod.DictFree) (Ls : List RVLike) : LikeEval.VectorOnly (compositeLogprob (Ls.map fun L => L.logprob mod)) :=
  fun _ _ h => composite_same hmod Ls 0 h

/-- Two posteriors that differ in their dictionaries only. -/
structure PostSame (p p' : PostState) : Prop where
  st : SameVector p.st p'.st
  likeCache : p'.likeCache = p.likeCache
  postCache : p'.postCache = p.postCache
  priors : p'.priors = p.priors

theorem setFast_same {p p' : PostState} (h : PostSame p p') (xs : List ℝ) : PostSame (p.setFast xs).1 (p'.setFast xs).1 ∧ (p'.setFast xs).2 = (p.setFast xs).2 := by
  have hv : ∀ l l' : LikeState ℝ, SameVector l.st l'.st → l'.cache = l.cache → SameVector (l.refreshFor xs.length).st (l'.refreshFor xs.length).st ∧ (l'.refreshFor xs.length).cache = (l.refreshFor xs.length).cache := by
    intro l l' hs hc
    have hr : SameVector l.listVaryParams.st l'.listVaryParams.st ∧ l'.listVaryParams.cache = l.listVaryParams.cache := by
      unfold LikeState.listVaryParams
      exact ⟨hs, by simp only [hs.rows]⟩
    unfold LikeState.refreshFor
    rw [hc]
    cases l.cache with
    | none => exact hr
    | some c =>
      by_cases hn : c.length ≠ xs.length
      · simp only [if_pos hn]; exact hr
      · simp only [if_neg hn]; exact ⟨hs, hc⟩
  obtain ⟨h1, h2⟩ := hv p.likeState p'.likeState h.st h.likeCache
  unfold PostState.setFast LikeState.setVaryParams
  simp only
  rw [h2, h1.rows]
  rcases writeVals _ xs _ with ⟨rows, _ | e⟩
  · exact ⟨⟨⟨rfl, h1.indices, h1.basis, h1.planets⟩, rfl, h.postCache, h.priors⟩, rfl⟩
  · exact ⟨⟨⟨rfl, h1.indices, h1.basis, h1.planets⟩, rfl, h.postCache, h.priors⟩, rfl⟩

theorem after_same {like : LikeEval} (hl : like.VectorOnly) {s s' : VState ℝ} (h : SameVector s s') : like.value s' = like.value s ∧ SameVector (like.after s) (like.after s') := by
  unfold LikeEval.value LikeEval.after
  rcases hl s s' h with ⟨e, h1, h2⟩ | ⟨t, t', r, h1, h2, h3⟩
  · rw [h1, h2]; exact ⟨rfl, h⟩
  · rw [h1, h2]; exact ⟨rfl, h3⟩

theorem stateAfter_same {like : LikeEval} (hl : like.VectorOnly) {s s' : VState ℝ} (h : SameVector s s') (r : Except PyErr Fl) : SameVector (stateAfter like s r) (stateAfter like s' r) := by
  unfold stateAfter
  rcases r with e | v
  · exact h
  · by_cases hv : v.isFinite = true
    · simp only [hv, if_true]; exact (after_same hl h).2
    · simp only [hv]; exact h

theorem priorSum_same {s s' : VState ℝ} (h : SameVector s s') (ps : List Prior) : priorSum s' ps = priorSum s ps := by
  unfold priorSum
  have : priorStep s' = priorStep s := by
    funext a p; unfold priorStep; rw [Prior.call_same h]
  rw [this]

theorem extra_same {s s' : VState ℝ} (h : SameVector s s') (ps : List Prior) : extraLikelihood s' ps = extraLikelihood s ps := by
  unfold extraLikelihood
  have : extraStep s' = extraStep s := by
    funext a p; unfold extraStep; rw [Prior.call_same h]
  rw [this]

theorem logprobArray_same {like : LikeEval} (hl : like.VectorOnly) {p p' : PostState} (h : PostSame p p') (xs : List ℝ) :
    PostSame (p.logprobArray like xs).1 (p'.logprobArray like xs).1 ∧ (p'.logprobArray like xs).2 = (p.logprobArray like xs).2 := by
  obtain ⟨h1, h2⟩ := setFast_same h xs
  unfold PostState.logprobArray
  rcases e : p.setFast xs with ⟨q, _ | err⟩ <;> rcases e' : p'.setFast xs with ⟨q', _ | err'⟩ <;> rw [e, e'] at h1 h2 <;> simp only at h1 h2
  · simp only [h1.priors, priorSum_same h1.st]
    refine ⟨⟨stateAfter_same hl h1.st _, h1.likeCache, h1.postCache, rfl⟩, ?_⟩
    unfold logprob
    rw [priorSum_same h1.st, (after_same hl h1.st).1]
  · cases h2
  · cases h2
  · cases h2; exact ⟨h1, rfl⟩

theorem nsArray_same {like : LikeEval} (hl : like.VectorOnly) {p p' : PostState} (h : PostSame p p') (xs : List ℝ) :
    PostSame (p.likelihoodNsArray like xs).1 (p'.likelihoodNsArray like xs).1 := by
  obtain ⟨h1, h2⟩ := setFast_same h xs
  unfold PostState.likelihoodNsArray
  rcases e : p.setFast xs with ⟨q, _ | err⟩ <;> rcases e' : p'.setFast xs with ⟨q', _ | err'⟩ <;> rw [e, e'] at h1 h2 <;> simp only at h1 h2
  · simp only [h1.priors, extra_same h1.st]
    exact ⟨stateAfter_same hl h1.st _, h1.likeCache, h1.postCache, rfl⟩
  · cases h2
  · cases h2
  · cases h2; exact h1

theorem runAll_same {like : LikeEval} (hl : like.VectorOnly) : ∀ (calls : List PostCall) {p p' : PostState}, PostSame p p' → PostSame (p.runAll like calls) (p'.runAll like calls)
  | [], _, _, h => h
  | .logprobArray xs :: t, _, _, h => runAll_same hl t (logprobArray_same hl h xs).1
  | .likelihoodNsArray xs :: t, _, _, h => runAll_same hl t (nsArray_same hl h xs)

end Radvel
