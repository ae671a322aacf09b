import Verif.Model.MaxLike
import Verif.Lemmas.History
import Verif.Spec.GP

/-! Lemmas on repeated evaluations at different points. -/

namespace Radvel

/-- The rows with the free values replaced. -/
def setAll {α : Type} (rows : List (Row α)) (xs : List α) : List (Row α) := (writeVals (freeRows rows) xs rows).1

theorem setAll_flags {α : Type} (rows : List (Row α)) (xs : List α) : SameFlags rows (setAll rows xs) := (writeVals_flags (freeRows rows) xs rows).1

theorem setAll_free {α : Type} (rows : List (Row α)) (xs : List α) : freeRows (setAll rows xs) = freeRows rows := (setAll_flags rows xs).freeRows

theorem setAll_fixed {α : Type} (rows : List (Row α)) (xs : List α) (i : Nat) (h : i ∉ freeRows rows) : (setAll rows xs)[i]? = rows[i]? := (writeVals_flags (freeRows rows) xs rows).2 i h

theorem setAll_at {α : Type} (rows : List (Row α)) (xs : List α) (hl : xs.length = (freeRows rows).length) (j i : Nat) (h : (freeRows rows)[j]? = some i) :
    ∃ r x, rows[i]? = some r ∧ xs[j]? = some x ∧ (setAll rows xs)[i]? = some { r with value := x } :=
  (writeVals_ok (freeRows rows) xs rows (nodup_freeRows _) (freeRows_lt _) hl).2 j i h

theorem setAll_setAll {α : Type} (rows : List (Row α)) (xs ys : List α) (hx : xs.length = (freeRows rows).length) (hy : ys.length = (freeRows rows).length) :
    setAll (setAll rows xs) ys = setAll rows ys := by
  apply List.ext_getElem?
  intro i
  by_cases hi : i ∈ freeRows rows
  · obtain ⟨j, hj⟩ := List.mem_iff_getElem?.1 hi
    obtain ⟨r, x, a1, a2, a3⟩ := setAll_at rows xs hx j i hj
    obtain ⟨r', y, b1, b2, b3⟩ := setAll_at rows ys hy j i hj
    obtain ⟨r'', y', c1, c2, c3⟩ := setAll_at (setAll rows xs) ys (by rw [setAll_free]; exact hy) j i (by rw [setAll_free]; exact hj)
    rw [b3, c3]
    rw [a1] at b1; cases b1
    rw [a3] at c1; cases c1
    rw [b2] at c2; cases c2
    rfl
  · rw [setAll_fixed _ _ _ (by rw [setAll_free]; exact hi), setAll_fixed _ _ _ hi, setAll_fixed _ _ _ hi]

theorem readVals_setAll {α : Type} (rows : List (Row α)) (xs : List α) (hl : xs.length = (freeRows rows).length) : readVals (setAll rows xs) (freeRows rows) = .ok xs := by
  obtain ⟨vs, c1, c2, c3⟩ := readVals_ok (setAll rows xs) (freeRows rows) (fun i hi => by rw [(setAll_flags rows xs).1]; exact freeRows_lt _ i hi)
  rw [c1]
  congr 1
  apply List.ext_getElem?
  intro j
  by_cases hj : j < (freeRows rows).length
  · have hji := List.getElem?_eq_getElem hj
    obtain ⟨r, d1, d2⟩ := c3 j _ hji
    obtain ⟨r', x, e1, e2, e3⟩ := setAll_at rows xs hl j _ hji
    rw [d1] at e3; cases e3
    rw [d2, e2]
  · rw [List.getElem?_eq_none (by omega), List.getElem?_eq_none (by omega)]

theorem setAll_own {α : Type} (rows : List (Row α)) (xs : List α) (h : readVals rows (freeRows rows) = .ok xs) : setAll rows xs = rows := by
  obtain ⟨vs, c1, c2, c3⟩ := readVals_ok rows (freeRows rows) (freeRows_lt rows)
  rw [h] at c1; cases c1
  apply List.ext_getElem?
  intro i
  by_cases hi : i ∈ freeRows rows
  · obtain ⟨j, hj⟩ := List.mem_iff_getElem?.1 hi
    obtain ⟨r, x, a1, a2, a3⟩ := setAll_at rows xs c2 j i hj
    obtain ⟨r', b1, b2⟩ := c3 j i hj
    rw [a1] at b1; cases b1
    rw [a2] at b2; cases b2
    rw [a3, a1]
  · exact setAll_fixed _ _ _ hi

/-- The posterior with the free values `xs` in the vector. -/
noncomputable def PostState.at (p : PostState) (xs : List ℝ) : PostState := { p with st := { p.st with rows := setAll p.st.rows xs }, likeCache := some (freeRows p.st.rows) }

theorem setFast_at (p : PostState) (hc : p.likeCache = none ∨ p.likeCache = some (freeRows p.st.rows)) (xs : List ℝ) (hx : xs.length = (freeRows p.st.rows).length) : p.setFast xs = (p.at xs, none) := by
  rw [setFast_spec p hc xs, (writeVals_ok (freeRows p.st.rows) xs p.st.rows (nodup_freeRows _) (freeRows_lt _) hx).1]
  rfl

theorem at_cache (p : PostState) (xs : List ℝ) : (p.at xs).likeCache = some (freeRows (p.at xs).st.rows) := by
  show some (freeRows p.st.rows) = some (freeRows (setAll p.st.rows xs))
  rw [setAll_free]

theorem at_at (p : PostState) (xs ys : List ℝ) (hx : xs.length = (freeRows p.st.rows).length) (hy : ys.length = (freeRows p.st.rows).length) : (p.at xs).at ys = p.at ys := by
  show ({ p with st := { p.st with rows := setAll (setAll p.st.rows xs) ys }, likeCache := some (freeRows (setAll p.st.rows xs)) } : PostState) = p.at ys
  rw [setAll_setAll _ _ _ hx hy, setAll_free]
  rfl

theorem logprobArray_at (like : LikeEval) (hpure : ∀ s, like.after s = s) (p : PostState) (hc : p.likeCache = none ∨ p.likeCache = some (freeRows p.st.rows)) (xs : List ℝ)
    (hx : xs.length = (freeRows p.st.rows).length) : p.logprobArray like xs = (p.at xs, logprob like.value (p.at xs).st p.priors) := by
  unfold PostState.logprobArray
  rw [setFast_at p hc xs hx]
  simp only []
  have : stateAfter like (p.at xs).st (priorSum (p.at xs).st (p.at xs).priors) = (p.at xs).st := by
    unfold stateAfter
    split
    · split
      · exact hpure _
      · rfl
    · rfl
  rw [this]
  rfl

/-- The state with another parameter dictionary of the same basis. -/
abbrev VState.withItems (s : VState ℝ) (items : Dict Key (Parameter ℝ)) : VState ℝ := { s with params := { s.params with items := items } }

theorem eccLoop_items (s : VState ℝ) (items : Dict Key (Parameter ℝ)) (fin : Bool) (pairs : List (Nat × ℝ)) : eccLoop (s.withItems items) fin pairs = eccLoop s fin pairs := by
  induction pairs with
  | nil => rfl
  | cons q t ih =>
    obtain ⟨n, lim⟩ := q
    unfold eccLoop
    rw [ih]
    rfl

theorem posKLoop_items (s : VState ℝ) (items : Dict Key (Parameter ℝ)) (fin : Bool) (ns : List Nat) : posKLoop (s.withItems items) fin ns = posKLoop s fin ns := by
  induction ns with
  | nil => rfl
  | cons n t ih =>
    unfold posKLoop
    rw [ih]
    rfl

theorem priorCall_items (s : VState ℝ) (items : Dict Key (Parameter ℝ)) (p : Prior) (o : Option Bool) : p.call (s.withItems items) o = p.call s o := by
  have hk : ∀ ks, readPars (s.withItems items) ks = readPars s ks := fun ks => readPars_congr ks fun k _ => rfl
  unfold Prior.call
  split
  · rfl
  · cases p with
    | ecc pairs => simp only [eccCall]; rw [eccLoop_items]
    | posK n => exact posKLoop_items _ _ _ _
    | numerical ks f inv => simp only; rw [hk]
    | user ks f inv => simp only; rw [hk]
    | _ => rfl

theorem logprob_items (like : VState ℝ → Except PyErr Fl) (hlike : ∀ s items, like (s.withItems items) = like s) (s : VState ℝ) (items : Dict Key (Parameter ℝ))
    (priors : List Prior) : logprob like (s.withItems items) priors = logprob like s priors := by
  have h : priorSum (s.withItems items) priors = priorSum s priors := by
    unfold priorSum
    congr 1
    funext acc p
    unfold priorStep
    rw [priorCall_items]
  unfold logprob
  rw [h, hlike]

theorem residuals_items {mod : Curve} (hmod : mod.DictFree) (L : RVLike) (s : VState ℝ) (items : Dict Key (Parameter ℝ)) :
    L.residuals mod (s.withItems items) = (L.residuals mod s).map fun x => (x.1.withItems items, x.2) := by
  have hpts : L.points mod (s.withItems items) = L.points mod s := by
    unfold RVLike.points
    congr 1
    funext o
    rw [hmod s (s.withItems items) rfl rfl rfl rfl]
  have hstep : ∀ s : VState ℝ, L.decorrStep (s.withItems items) = L.decorrStep s := by
    intro s
    funext res parname
    unfold RVLike.decorrStep RVLike.pars
    simp only [readPars_congr (s := s) (s' := s.withItems items) _ fun k _ => rfl]
  unfold RVLike.residuals
  rw [hpts, show readRow (s.withItems items) = readRow s from rfl]
  simp only [bind, Except.bind]
  rcases L.points mod s with e | pts
  · rfl
  simp only []
  rcases readRow s L.gammaIdx with e | g
  · rfl
  simp only []
  rcases readRow s L.jitIdx with e | j
  · rfl
  simp only []
  by_cases ha : g.analytic = true
  · simp only [ha, if_true]
    have := hstep { s with rows := s.rows.set L.gammaIdx { g with value := weightedOffset pts j.value } }
    rw [show L.decorrStep _ = _ from this]
    rcases L.decParams.foldlM _ _ with e | r <;> rfl
  · simp only [ha, Bool.false_eq_true, if_false]
    rw [hstep]
    rcases L.decParams.foldlM _ _ with e | r <;> rfl

theorem rvLogprob_items {mod : Curve} (hmod : mod.DictFree) (L : RVLike) (s : VState ℝ) (items : Dict Key (Parameter ℝ)) :
    L.logprob mod (s.withItems items) = (L.logprob mod s).map fun x => (x.1.withItems items, x.2) := by
  unfold RVLike.logprob
  rw [residuals_items hmod, show readRow (s.withItems items) = readRow s from rfl]
  simp only [bind, Except.bind]
  rcases readRow s L.jitIdx with e | j
  · rfl
  simp only []
  rcases L.residuals mod s with e | x
  · rfl
  simp only [Except.map]
  rw [show readRow (x.1.withItems items) = readRow x.1 from rfl]
  rcases readRow x.1 L.gammaIdx with e | g <;> rfl

theorem composite_items {mod : Curve} (hmod : mod.DictFree) (Ls : List RVLike) (s : VState ℝ) (items : Dict Key (Parameter ℝ)) :
    LikeEval.value (compositeLogprob (Ls.map fun L => L.logprob mod)) (s.withItems items) = LikeEval.value (compositeLogprob (Ls.map fun L => L.logprob mod)) s := by
  have key : ∀ (Ls : List RVLike) (s : VState ℝ) (acc : Fl), (Ls.map fun L => L.logprob mod).foldlM compositeStep (s.withItems items, acc) =
      ((Ls.map fun L => L.logprob mod).foldlM compositeStep (s, acc)).map fun x => (x.1.withItems items, x.2) := by
    intro Ls
    induction Ls with
    | nil => intro s acc; rfl
    | cons L t ih =>
      intro s acc
      have hL := rvLogprob_items hmod L s items
      rcases hl : L.logprob mod s with e | x
      · rw [hl] at hL
        have c1 : compositeStep (s.withItems items, acc) (L.logprob mod) = .error e := by unfold compositeStep; rw [hL]; rfl
        have c2 : compositeStep (s, acc) (L.logprob mod) = .error e := by unfold compositeStep; rw [hl]
        rw [List.map_cons, List.foldlM_cons, List.foldlM_cons, c1, c2]
        rfl
      · rw [hl] at hL
        have c1 : compositeStep (s.withItems items, acc) (L.logprob mod) = .ok (x.1.withItems items, acc + x.2) := by unfold compositeStep; rw [hL]; rfl
        have c2 : compositeStep (s, acc) (L.logprob mod) = .ok (x.1, acc + x.2) := by unfold compositeStep; rw [hl]
        rw [List.map_cons, List.foldlM_cons, List.foldlM_cons, c1, c2]
        exact ih x.1 (acc + x.2)
  unfold LikeEval.value compositeLogprob
  rw [key]
  have : ∀ r : Except PyErr (VState ℝ × Fl), (match r.map fun x => (x.1.withItems items, x.2) with | .ok (_, v) => Except.ok v | .error e => Except.error e) =
      (match r with | .ok (_, v) => Except.ok v | .error e => Except.error e) := by
    intro r
    cases r <;> rfl
  exact this _

theorem readVals_agree {s s' : VState ℝ} (h : AgreeOff s s') : readVals s'.rows (freeRows s'.rows) = readVals s.rows (freeRows s.rows) := by
  rw [h.flags.freeRows]
  have : ∀ is : List Nat, (∀ i ∈ is, i ∈ freeRows s.rows) → readVals s'.rows is = readVals s.rows is := by
    intro is
    induction is with
    | nil => intro _; rfl
    | cons i is ih =>
      intro hi
      have hna : ¬ AnalyticGamma s i := by
        rintro ⟨x, r, _, h2, _, h4⟩
        obtain ⟨r', h5, h6⟩ := (mem_freeRows _ _).1 (hi i (by simp))
        rw [h2] at h5; cases h5
        rw [h4] at h6; cases h6
      unfold readVals
      rw [h.rows i hna, ih fun j hj => hi j (List.mem_cons_of_mem _ hj)]
  exact this _ fun i hi => hi

theorem writeVals_length {α : Type} : ∀ (is : List Nat) (xs : List α) (rows : List (Row α)), (writeVals is xs rows).2 = none → xs.length = is.length := by
  intro is
  induction is with
  | nil => intro xs rows h; cases xs with
    | nil => rfl
    | cons x xs => cases h
  | cons i is ih =>
    intro xs rows h
    cases xs with
    | nil => cases h
    | cons x xs =>
      unfold writeVals at h
      rcases hr : rows[i]? with _ | r
      · rw [hr] at h; cases h
      · rw [hr] at h
        simp [ih xs _ h]

/-- What a successful run of the optimiser is: the evaluations in turn. -/
theorem minimize_inv (like : LikeEval) (opt : Optimiser) (x0 : List ℝ) : ∀ (n : Nat) (p : PostState) (h : List (List ℝ × Fl)) (q : PostState) (h' : List (List ℝ × Fl)),
    minimize like opt x0 n p h = (q, .ok h') →
    ∃ t, h' = h ++ t ∧ q = p.runAll like (t.map fun y => .logprobArray y.1) ∧
      ∀ a x v b, t = a ++ (x, v) :: b → ∃ w, ((p.runAll like (a.map fun y => .logprobArray y.1)).logprobArray like x).2 = .ok w ∧ v = w.minus := by
  intro n
  induction n with
  | zero =>
    intro p h q h' hr
    cases hr
    exact ⟨[], by simp, rfl, by simp⟩
  | succ n ih =>
    intro p h q h' hr
    unfold minimize at hr
    rcases hn : opt.next x0 h with _ | x
    · rw [hn] at hr
      cases hr
      exact ⟨[], by simp, rfl, by simp⟩
    · rw [hn] at hr
      simp only [] at hr
      unfold PostState.neglogprobArray at hr
      rcases he : p.logprobArray like x with ⟨p', e | w⟩
      · rw [he] at hr; cases hr
      · rw [he] at hr
        simp only [] at hr
        obtain ⟨t, h1, h2, h3⟩ := ih p' _ q h' hr
        have hp' : p' = PostCall.run like p (.logprobArray x) := by simp [PostCall.run, he]
        refine ⟨(x, w.minus) :: t, by rw [h1]; simp, ?_, ?_⟩
        · rw [h2, hp']; rfl
        · intro a y v b hab
          cases a with
          | nil =>
            simp only [List.nil_append, List.cons.injEq, Prod.mk.injEq] at hab
            obtain ⟨⟨rfl, rfl⟩, _⟩ := hab
            exact ⟨w, by show (p.logprobArray like x).2 = _; rw [he], rfl⟩
          | cons z a =>
            simp only [List.cons_append, List.cons.injEq] at hab
            obtain ⟨rfl, hab⟩ := hab
            obtain ⟨w', e1, e2⟩ := h3 a y v b hab
            refine ⟨w', ?_, e2⟩
            rw [hp'] at e1
            exact e1

end Radvel
