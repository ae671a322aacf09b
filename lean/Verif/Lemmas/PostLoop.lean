import Verif.Spec.Postprocess
import Verif.Lemmas.Postprocess
import Verif.Lemmas.Reindex
import Verif.Lemmas.Like
import Verif.Props.Params
import Verif.Props.Derive

/-! Lemmas on the loops of `sampling_postprocessing`. -/

namespace Radvel
open Real

theorem quantile_colQuantile {n : Nat} (col : Fin n → Option ℝ) {q x : ℝ} (h0 : 0 ≤ q) (h1 : q ≤ 1) (hx : quantile col q = some x) : ColQuantile col q x := by
  have hne : ∃ j x, col j = some x := by
    by_contra hc
    push Not at hc
    rw [quantile_none col (fun j => by
      rcases h : col j with _ | y
      · rfl
      · exact absurd h (hc j y))] at hx
    cases hx
  rw [quantile_eq col hne h0 h1] at hx
  have hL : 0 < (sortedCol col).length := List.length_pos_iff.2 (sortedCol_ne col hne)
  have hf := floor_pos_lt hL h0 h1
  obtain ⟨p0, _⟩ := pos_bounds hL h0 h1
  refine ⟨sortedCol col, sortedCol_perm col, sortedCol_sorted col, ⌊(((sortedCol col).length : ℝ) - 1) * q⌋₊, (((sortedCol col).length : ℝ) - 1) * q - ⌊(((sortedCol col).length : ℝ) - 1) * q⌋₊, _, ?_, ?_, by ring,
    List.getElem?_eq_getElem hf, ?_⟩
  · linarith [Nat.floor_le p0]
  · linarith [Nat.lt_floor_add_one ((((sortedCol col).length : ℝ) - 1) * q)]
  · have h2 := Option.some.inj hx
    rw [← h2]
    unfold interp
    have : (sortedCol col).getD ⌊(((sortedCol col).length : ℝ) - 1) * q⌋₊ 0 = (sortedCol col)[⌊(((sortedCol col).length : ℝ) - 1) * q⌋₊] := by
      rw [List.getD, List.getElem?_eq_getElem hf]; rfl
    rw [this]
    ring

theorem colQuantile_unique {n : Nat} {col : Fin n → Option ℝ} {q x y : ℝ} (hx : ColQuantile col q x) (hy : ColQuantile col q y) : x = y := by
  obtain ⟨l, p, s, i, t, a, t0, t1, e, ha, rfl⟩ := hx
  obtain ⟨l', p', s', i', t', a', t0', t1', e', ha', rfl⟩ := hy
  have hl : l = l' := List.Perm.eq_of_pairwise (le := (· ≤ ·)) (fun a b _ _ h1 h2 => le_antisymm h1 h2) s s' (p.trans p'.symm)
  subst hl
  have hi : i = i' := by
    have h1 : (i : ℝ) < i' + 1 := by linarith
    have h2 : (i' : ℝ) < i + 1 := by linarith
    have h1 : i < i' + 1 := by exact_mod_cast h1
    have h2 : i' < i + 1 := by exact_mod_cast h2
    omega
  subst hi
  rw [ha] at ha'
  cases ha'
  have : t = t' := by linarith
  rw [this]

theorem fillFixed_fold {n : Nat} (s : VState ℝ) (k : Key) : ∀ (ks : List Key) (c : Chain n), ks.Nodup → (∀ k ∈ ks, ∃ r, RowOf s k r) → ∃ c', ks.foldlM (fillFixed s) c = .ok c' ∧
    (k ∉ ks → c'.get? k = c.get? k) ∧ (k ∈ ks → ∀ r, RowOf s k r → c'.get? k = if r.vary then c.get? k else some (fun _ => r.value)) := by
  intro ks
  induction ks with
  | nil => intro c _ _; exact ⟨c, rfl, fun _ => rfl, fun h => absurd h (by simp)⟩
  | cons k' t ih =>
    intro c hn h
    obtain ⟨hk', ht⟩ := List.nodup_cons.1 hn
    obtain ⟨r', i', hi', hr'⟩ := h k' (by simp)
    have hf : fillFixed s c k' = .ok (if r'.vary then c else c.set k' (fun _ => r'.value)) := by
      unfold fillFixed
      rw [hi']
      simp only
      rw [hr']
    obtain ⟨c', e1, e2, e3⟩ := ih (if r'.vary then c else c.set k' (fun _ => r'.value)) ht (fun k hk => h k (by simp [hk]))
    have hc : k ≠ k' → Dict.get? (if r'.vary then c else c.set k' (fun _ => r'.value)) k = c.get? k := by
      intro hne
      by_cases hv : r'.vary
      · simp [hv]
      · simp only [hv]; exact Dict.get?_set_ne _ _ (fun h => hne h.symm)
    refine ⟨c', ?_, ?_, ?_⟩
    · change (fillFixed s c k' >>= _) = _
      rw [hf]
      exact e1
    · intro hk
      simp only [List.mem_cons, not_or] at hk
      rw [e2 hk.2, hc hk.1]
    · intro hk r hr
      by_cases hkk : k = k'
      · subst hkk
        obtain ⟨i, hi, hr⟩ := hr
        rw [hi'] at hi; cases hi
        rw [hr'] at hr; cases hr
        rw [e2 hk']
        by_cases hv : r'.vary
        · simp [hv]
        · simp [hv, Dict.get?_set_self]
      · rw [e3 (by simpa [hkk] using hk) r hr, hc hkk]

theorem sameFlags_set (rows : List (Row ℝ)) (i : Nat) (r : Row ℝ) (hr : rows[i]? = some r) (v : ℝ) : SameFlags rows (rows.set i { r with value := v }) := by
  refine ⟨by simp, ?_⟩
  intro i' r' hr'
  by_cases h : i = i'
  · subst h
    rw [hr] at hr'; cases hr'
    exact ⟨{ r with value := v }, List.getElem?_set_self (List.getElem?_eq_some_iff.1 hr).1, rfl, rfl, rfl⟩
  · exact ⟨r', by rw [List.getElem?_set_ne h]; exact hr', rfl, rfl, rfl⟩

theorem setMedian_fold {n : Nat} (P : Params ℝ) (indices : Dict Key Nat) (L : Nat) (hidx : ∀ k ∈ P.items.keys, ∃ i, indices.get? k = some i ∧ i < L)
    (hinj : ∀ k ∈ P.items.keys, ∀ k' ∈ P.items.keys, indices.get? k = indices.get? k' → k = k') : ∀ (chains : Chain n) (rows : List (Row ℝ)), Dict.keys chains |>.Nodup → rows.length = L →
    ∃ rows', chains.foldlM (setMedian P indices) rows = .ok rows' ∧ SameFlags rows rows' ∧
      ∀ k ∈ P.items.keys, ∀ (i : Nat) r, indices.get? k = some i → rows[i]? = some r →
        rows'[i]? = some { r with value := match Dict.get? chains k with | some col => colMid col | none => r.value } := by
  intro chains
  induction chains with
  | nil => intro rows _ hl; exact ⟨rows, rfl, SameFlags.refl _, fun k _ i r _ hr => hr⟩
  | cons x t ih =>
    intro rows hn hl
    obtain ⟨k', col'⟩ := x
    simp only [Dict.keys, List.map_cons, List.nodup_cons] at hn
    have hstep : ∃ rows1, setMedian P indices rows (k', col') = .ok rows1 ∧ SameFlags rows rows1 ∧
        ∀ k ∈ P.items.keys, ∀ (i : Nat) r, indices.get? k = some i → rows[i]? = some r → rows1[i]? = some { r with value := if k = k' then colMid col' else r.value } := by
      unfold setMedian
      by_cases hh : P.items.has k' = true
      · rw [if_pos hh]
        have hm := (Dict.has_iff _ _).1 hh
        obtain ⟨i', hi', hlt⟩ := hidx k' hm
        have hr' : rows[i']? = some rows[i'] := List.getElem?_eq_getElem (by omega)
        refine ⟨rows.set i' { rows[i'] with value := colMid col' }, ?_, sameFlags_set rows i' _ hr' _, ?_⟩
        · simp only [hi', hr']
        · intro k hk i r hi hr
          by_cases hkk : k = k'
          · subst hkk
            rw [hi'] at hi; cases hi
            rw [hr'] at hr; cases hr
            rw [List.getElem?_set_self (by omega), if_pos rfl]
          · have hii : i' ≠ i := by
              rintro rfl
              exact hkk (hinj k hk k' hm (hi.trans hi'.symm))
            rw [List.getElem?_set_ne hii, hr, if_neg hkk]
      · rw [if_neg hh]
        refine ⟨rows, rfl, SameFlags.refl _, ?_⟩
        intro k hk i r hi hr
        have hkk : k ≠ k' := by
          rintro rfl
          exact hh ((Dict.has_iff _ _).2 hk)
        rw [hr, if_neg hkk]
    obtain ⟨rows1, a1, a2, a3⟩ := hstep
    obtain ⟨rows', b1, b2, b3⟩ := ih rows1 hn.2 (a2.1.trans hl)
    refine ⟨rows', ?_, a2.trans b2, ?_⟩
    · change (setMedian P indices rows (k', col') >>= _) = _
      rw [a1]
      exact b1
    · intro k hk i r hi hr
      rw [b3 k hk i _ hi (a3 k hk i r hi hr)]
      by_cases hkk : k = k'
      · subst hkk
        have h1 : Dict.get? t k = none := (Dict.get?_eq_none_iff _ _).2 hn.1
        have h2 : Dict.get? ((k, col') :: t) k = some col' := by simp [Dict.get?]
        rw [h1, h2]
        simp
      · have h2 : Dict.get? ((k', col') :: t) k = Dict.get? t k := by simp [Dict.get?, Ne.symm hkk]
        rw [h2]
        simp [hkk]

theorem rowOf_of_owned {s : VState ℝ} (h : RowsOwned s) {k : Key} (hk : k ∈ s.params.items.keys) : ∃ r, RowOf s k r := by
  obtain ⟨i, hi, hlt⟩ := h.1 k hk
  exact ⟨s.rows[i], i, hi, List.getElem?_eq_getElem hlt⟩

/-- What `prepare` does on a state reached by the code. -/
theorem prepare_spec {n : Nat} (s : VState ℝ) (hb : Built s) (chains : Chain n) (hk : chains.keys.Nodup) (f : Frame n) (s' : VState ℝ) (h : prepare s chains = .ok (f, s')) :
    (∃ c : Chain n, c.toSynth s.params.basis s.params.numPlanets = .ok f ∧ (∀ k ∉ s.params.items.keys, c.get? k = chains.get? k) ∧
      ∀ k r, k ∈ s.params.items.keys → RowOf s k r → c.get? k = if r.vary then chains.get? k else some (fun _ => r.value)) ∧
    (∃ rows : List (Row ℝ), SameFlags s.rows rows ∧ VState.vectorToDict { s with rows := rows } = .ok s' ∧
      ∀ k ∈ s.params.items.keys, ∀ (i : Nat) r, s.indices.get? k = some i → s.rows[i]? = some r →
        rows[i]? = some { r with value := match chains.get? k with | some col => colMid col | none => r.value }) := by
  have ho := C01_reachable s hb
  have hnd : s.params.items.keys.Nodup := hb.inv.1.nodup
  unfold prepare at h
  obtain ⟨c, hc, _⟩ := fillFixed_fold (n := n) s .dvdt s.params.items.keys chains hnd (fun k hk => rowOf_of_owned ho hk)
  rw [hc] at h
  simp only at h
  rcases hf : c.toSynth s.params.basis s.params.numPlanets with e | f'
  · rw [hf] at h; cases h
  rw [hf] at h
  simp only at h
  obtain ⟨rows, r1, r2, r3⟩ := setMedian_fold s.params s.indices s.rows.length ho.1 ho.2 chains s.rows hk rfl
  rw [r1] at h
  simp only at h
  rcases hd : VState.vectorToDict { s with rows := rows } with e | s2
  · rw [hd] at h; cases h
  rw [hd] at h
  obtain ⟨rfl, rfl⟩ := Prod.mk.inj (Except.ok.inj h)
  refine ⟨⟨c, hf, ?_, ?_⟩, rows, r2, hd, r3⟩
  · intro k hk
    obtain ⟨c', hc', h2, _⟩ := fillFixed_fold (n := n) s k s.params.items.keys chains hnd (fun k hk => rowOf_of_owned ho hk)
    rw [hc] at hc'; cases hc'
    exact h2 hk
  · intro k r hk hr
    obtain ⟨c', hc', _, h3⟩ := fillFixed_fold (n := n) s k s.params.items.keys chains hnd (fun k hk => rowOf_of_owned ho hk)
    rw [hc] at hc'; cases hc'
    exact h3 hk r hr

theorem prepare_ok {n : Nat} (s : VState ℝ) (hb : Built s) (chains : Chain n) (hk : chains.keys.Nodup)
    (hfree : ∀ k ∈ s.params.items.keys, ∀ r, RowOf s k r → r.vary = true → k ∈ chains.keys)
    (hread : ∀ i < s.params.numPlanets, ∀ x ∈ synthReads s.params.basis, Key.orb x (i + 1) ∈ s.params.items.keys) : ∃ r, prepare s chains = .ok r := by
  have ho := C01_reachable s hb
  have hnd : s.params.items.keys.Nodup := hb.inv.1.nodup
  obtain ⟨c, hc, _⟩ := fillFixed_fold (n := n) s .dvdt s.params.items.keys chains hnd (fun k hk => rowOf_of_owned ho hk)
  obtain ⟨f, hf⟩ := Chain.toSynth_ok c s.params.basis s.params.numPlanets (by
    intro i hi x hx
    have hm := hread i hi x hx
    obtain ⟨r, hr⟩ := rowOf_of_owned ho hm
    obtain ⟨c', hc', _, h3⟩ := fillFixed_fold (n := n) s (.orb x (i + 1)) s.params.items.keys chains hnd (fun k hk => rowOf_of_owned ho hk)
    rw [hc] at hc'; cases hc'
    have h4 := h3 hm r hr
    by_cases hv : r.vary = true
    · rw [hv] at h4
      obtain ⟨col, hcol⟩ := Dict.exists_get?_of_mem _ (hfree _ hm r hr hv)
      exact Dict.mem_keys_of_get? _ (h4.trans hcol)
    · simp only [hv] at h4
      exact Dict.mem_keys_of_get? _ h4)
  obtain ⟨rows, r1, r2, r3⟩ := setMedian_fold s.params s.indices s.rows.length ho.1 ho.2 chains s.rows hk rfl
  obtain ⟨s2, hd, _⟩ := C02_read_own_row _ (Built.write s rows hb r2.1)
  refine ⟨(f, s2), ?_⟩
  unfold prepare
  rw [hc]
  simp only
  rw [hf]
  simp only
  rw [r1]
  simp only
  rw [hd]

/-- The loop over the converted parameters. -/
theorem reportAll_fold {n : Nat} (fuel : Nat) (f : Frame n) : ∀ (items : Dict Key (Parameter ℝ)) (out out' : Dict Key (Option Reported)), items.keys.Nodup → items.foldlM (reportAll fuel f) out = .ok out' →
    ∀ k, (∀ v, items.get? k = some v → ∃ col r, f.get? k = some col ∧ report fuel v.value col = .ok r ∧ out'.get? k = some r) ∧ (items.get? k = none → out'.get? k = out.get? k) := by
  intro items
  induction items with
  | nil => intro out out' _ h k; cases Except.ok.inj h; exact ⟨fun v hv => (by cases hv), fun _ => rfl⟩
  | cons x t ih =>
    intro out out' hn h k
    obtain ⟨k', p⟩ := x
    simp only [Dict.keys, List.map_cons, List.nodup_cons] at hn
    change (reportAll fuel f out (k', p) >>= _) = _ at h
    unfold reportAll at h
    simp only at h
    rcases hcol : f.get? k' with _ | col
    · rw [hcol] at h; cases h
    rw [hcol] at h
    simp only at h
    rcases hr : report fuel p.value col with e | r
    · rw [hr] at h; cases h
    rw [hr] at h
    obtain ⟨h1, h2⟩ := ih _ _ hn.2 h k
    by_cases hkk : k' = k
    · subst hkk
      have h3 : Dict.get? t k' = none := (Dict.get?_eq_none_iff _ _).2 hn.1
      constructor
      · intro v hv
        simp [Dict.get?] at hv
        subst hv
        exact ⟨col, r, hcol, hr, by rw [h2 h3, Dict.get?_set_self]⟩
      · intro hv
        simp [Dict.get?] at hv
    · have h3 : Dict.get? ((k', p) :: t) k = Dict.get? t k := by simp [Dict.get?, hkk]
      rw [h3]
      refine ⟨h1, fun hv => ?_⟩
      rw [h2 hv, Dict.get?_set_ne _ _ hkk]

theorem reportAll_ok {n : Nat} (fuel : Nat) (f : Frame n) : ∀ (items : Dict Key (Parameter ℝ)) (out : Dict Key (Option Reported)),
    (∀ x ∈ items, ∃ col j y, f.get? x.1 = some col ∧ col j = some y) → (∀ v col, (∃ j y, col j = some y) → ∃ r, report (n := n) fuel v col = .ok r) → ∃ out', items.foldlM (reportAll fuel f) out = .ok out' := by
  intro items
  induction items with
  | nil => intro out _ _; exact ⟨out, rfl⟩
  | cons x t ih =>
    intro out h hrep
    obtain ⟨col, j, y, hcol, hy⟩ := h x (by simp)
    obtain ⟨r, hr⟩ := hrep x.2.value col ⟨j, y, hy⟩
    obtain ⟨o, ho⟩ := ih (out.set x.1 r) (fun z hz => h z (by simp [hz])) hrep
    refine ⟨o, ?_⟩
    change (reportAll fuel f out x >>= _) = _
    have : reportAll fuel f out x = .ok (out.set x.1 r) := by
      unfold reportAll
      rw [hcol]
      simp only
      rw [hr]
    rw [this]
    exact ho

theorem report_ok {n : Nat} (fuel : Nat) (v : ℝ) (col : Fin n → Option ℝ) (h : ∃ j y, col j = some y) : ∃ r, report fuel v col = .ok r := by
  unfold report
  rw [quantile_eq col h (by norm_num) (by norm_num), quantile_eq col h (by norm_num) (by norm_num), quantile_eq col h (by norm_num) (by norm_num)]
  simp only
  split_ifs <;> exact ⟨_, rfl⟩

end Radvel
