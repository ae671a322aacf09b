import Verif.Lemmas.Like

/-!
# C01-C08: parameters, vector, free-parameter interface
-/

namespace Radvel

variable {α : Type}

theorem synced_of_fresh [Zero α] {s : VState α} (h : Fresh s) : Synced s := by
  intro k q hq
  obtain ⟨i, hi⟩ := h.inv.indexed_of_not_mem h.ui (Or.inl (Dict.mem_keys_of_get? _ hq))
  refine ⟨i, mkRow q, hi, h.rows k q i hq hi, rfl, by simp [mkRow], rfl, rfl⟩

theorem owned_of_inv {s : VState α} (h : IdxInv s s.rows.length) (hu : unindexed s = []) : RowsOwned s := by
  refine ⟨fun k hk => ?_, fun k hk k' hk' he => ?_⟩
  · obtain ⟨i, hi⟩ := h.indexed_of_not_mem hu (Or.inl hk)
    exact ⟨i, hi, h.bound (Or.inl hk) hi⟩
  · obtain ⟨i, hi⟩ := h.indexed_of_not_mem hu (Or.inl hk)
    exact h.inj (Or.inl hk) (Or.inl hk') hi (he ▸ hi)

/-! ## C01 -/

/-- C01, model creation: for every user-built parameter set the model is created, every key owns a row and the row holds
the parameter's attributes. -/
theorem C01_model [Zero α] (p : Params α) (hp : UserParams p) :
    ∃ s, VState.init p = .ok s ∧ s.params = p ∧ RowsOwned s ∧ Synced s := by
  obtain ⟨s, h1, h2, h3, h4, _⟩ := hp.model
  exact ⟨s, h1, h4, owned_of_inv h2.inv h2.ui, synced_of_fresh h2⟩

/-- C01, likelihood creation in any reachable state: succeeds, keeps every parameter, adds the requested keys, and afterwards
every key owns a row holding its attributes. -/
theorem C01_likelihood [Zero α] (s : VState α) (hs : Built s) (extra decorr : List Key)
    (hk : ∀ k ∈ extra ++ decorr, ∀ p n, k ≠ .orb p n) :
    ∃ s', s.addLikelihood extra decorr = .ok s' ∧ RowsOwned s' ∧ Synced s' ∧
      (∀ k q, s.params.items.get? k = some q → s'.params.items.get? k = some q) ∧
      (∀ k ∈ extra ++ decorr, k ∈ s'.params.items.keys) := by
  obtain ⟨s', h1, h2, _, _, h5, _, _, h8⟩ :=
    likelihood_fresh hs.inv.1 extra decorr hk (by rw [hs.inv.2]; simp)
  exact ⟨s', h1, owned_of_inv h2.inv h2.ui, synced_of_fresh h2, h8, h5⟩

/-- C01, every reachable state: every key owns a row, whatever was edited or constructed before. -/
theorem C01_reachable [Zero α] (s : VState α) (hs : Built s) : RowsOwned s :=
  owned_of_inv hs.inv.1 hs.inv.2

/-- C01, layout: in every reachable state planet `n`'s parameters are in the five rows that the velocity code reads
(`model.py` 337-341), followed by `dvdt` and `curv`. -/
theorem C01_layout [Zero α] (s : VState α) (hs : Built s) :
    (∀ p n, 1 ≤ n → n ≤ s.params.numPlanets → s.indices.get? (.orb p n) = some (5 * (n - 1) + p.offset)) ∧
    s.indices.get? .dvdt = some (5 * s.params.numPlanets) ∧
    s.indices.get? .curv = some (5 * s.params.numPlanets + 1) ∧
    5 * s.params.numPlanets + 2 ≤ s.rows.length :=
  ⟨hs.inv.1.orbIdx, hs.inv.1.dvdtIdx, hs.inv.1.curvIdx, hs.inv.1.size⟩

/-- A concrete two-planet set with trend and two instruments. -/
def exampleParams : Params Int :=
  ((((Params.init (0 : Int) 2 .perTcSecoswSesinwK none).setItem (.orb .per 1) { value := 3 }).setItem .dvdt { value := 5, vary := .no }).setItem
    (.inst .gamma "_j") { value := 7, linear := true }).setItem (.inst .jit "_j") { value := 9, mcmcscale := some 2 }

theorem exampleParams_user : UserParams exampleParams := by
  refine .set _ _ _ (.set _ _ _ (.set _ _ _ (.set _ _ _ (.new 0 2 .perTcSecoswSesinwK none (by decide)) ?_ ?_) ?_ ?_) ?_ ?_) ?_ ?_
  · exact Or.inl (by decide)
  · decide
  · exact Or.inr (Or.inl rfl)
  · decide
  · exact Or.inr (Or.inr (Or.inr ⟨_, _, rfl⟩))
  · decide
  · exact Or.inr (Or.inr (Or.inr ⟨_, _, rfl⟩))
  · decide

/-- The state an operation leads to (for the concrete examples; an error gives an empty state). -/
def okState (e : Except PyErr (VState Int)) : VState Int :=
  match e with
  | .ok s => s
  | .error _ => { params := Params.init 0 0 .perTpEWK none, indices := [], rows := [], names := [] }

/-- The model state of `exampleParams`. -/
def exampleState : VState Int := okState (VState.init exampleParams)

theorem exampleState_built : Built exampleState :=
  .model exampleParams _ exampleParams_user (by decide +kernel)

example : Built exampleState ∧ exampleState.rows.length = 14 ∧
    exampleState.rows[12]? = some { value := 7, vary := true, scale := 0, linear := true } := by
  refine ⟨exampleState_built, ?_, ?_⟩ <;> decide +kernel

/-! ## C02 -/

/-- C02: writing the dictionary to the vector and reading it back changes nothing at all in the dictionary. -/
theorem C02_roundtrip [Zero α] (s : VState α) (hs : Built s) :
    ∃ s1 s2, s.dictToVector = .ok s1 ∧ s1.vectorToDict = .ok s2 ∧ s2.params = s.params ∧ s2.rows = s1.rows := by
  obtain ⟨s1, a1, a2, a3, a4, a5, a6⟩ := sync_fresh hs.inv.1 hs.inv.2
  obtain ⟨s2, b1, b2, b3, b4, b5, b6, b7, b7', b8, b9⟩ := toDict_spec a2.inv a2.ui
  refine ⟨s1, s2, a1, b1, ?_, b3⟩
  have hitems : s2.params.items = s1.params.items := by
    refine Dict.ext_of_keys _ _ ?_ b5 ?_
    · rw [b5]; exact a2.inv.nodup
    · intro k hk
      rw [b5] at hk
      obtain ⟨q, hq⟩ := Dict.exists_get?_of_mem _ hk
      obtain ⟨i, r, c1, c2, c3⟩ := b8 k q hq
      rw [a2.rows k q i hq c1] at c2
      cases c2
      rw [c3, hq]; rfl
  have hp : s2.params = s1.params := by
    have hpp : s2.params.planetParameters = s1.params.planetParameters := by
      unfold VState.vectorToDict at b1
      split at b1 <;> cases b1
      rfl
    cases h2 : s2.params; cases h1 : s1.params
    simp_all
  rw [hp, a3]

/-- C02: after any write to the vector, reading back gives every parameter the value of its own row and changes nothing else. -/
theorem C02_read_own_row [Zero α] (s : VState α) (hs : Built s) :
    ∃ s', s.vectorToDict = .ok s' ∧ s'.rows = s.rows ∧ s'.params.items.keys = s.params.items.keys ∧
      ∀ k q, s.params.items.get? k = some q → ∃ i r, s.indices.get? k = some i ∧ s.rows[i]? = some r ∧
        s'.params.items.get? k = some { q with value := r.value } := by
  obtain ⟨s2, b1, _, b3, _, b5, _, _, _, b8, _⟩ := toDict_spec hs.inv.1 hs.inv.2
  exact ⟨s2, b1, b3, b5, b8⟩

example : Built exampleState ∧ exampleState.params.items.keys.length = 13 :=
  ⟨exampleState_built, by decide +kernel⟩

/-! ## C03 -/

/-- C03: in every reachable state `names` labels the rows: one name per row, `names[i]` is the key with index `i`, and
every key of the dictionary occurs. -/
theorem C03_names_partial [Zero α] (s : VState α) (hs : Built s) : NamesLabelRows s := by
  have h := hs.namesOk
  refine ⟨h.len, fun i k hk => (h.bwd i k hk).2, fun k hk => ?_⟩
  obtain ⟨i, hi⟩ := hs.inv.1.indexed_of_not_mem hs.inv.2 (Or.inl hk)
  exact ⟨i, h.fwd k i (Or.inl hk) hi⟩

/-- C03: `name_vary_params` and `get_vary_params` of a likelihood list the same parameters in the same order: the `j`-th value
is the value of the row of the `j`-th name. -/
theorem C03_same_order_partial [Zero α] (l : LikeState α) (hs : Built l.st)
    (hc : l.cache = none ∨ l.cache = some (freeRows l.st.rows)) :
    ∃ ks vs, l.nameVaryParams.2 = .ok ks ∧ l.getVaryParams.2 = .ok vs ∧ ks.length = vs.length ∧
      (∀ (j : Nat) k v, ks[j]? = some k → vs[j]? = some v →
        ∃ i r, l.st.indices.get? k = some i ∧ l.st.rows[i]? = some r ∧ r.vary = true ∧ r.value = v) ∧
      (∀ k i r, k ∈ l.st.params.items.keys → l.st.indices.get? k = some i → l.st.rows[i]? = some r → r.vary = true → k ∈ ks) := by
  have h := hs.namesOk
  obtain ⟨ks, a1, a2, a3⟩ := readNames_ok l.st.names (freeRows l.st.rows) (fun i hi => by
    rw [h.len]; exact freeRows_lt _ i hi)
  obtain ⟨vs, b1, b2, b3⟩ := readVals_ok l.st.rows (freeRows l.st.rows) (freeRows_lt _)
  refine ⟨ks, vs, ?_, ?_, a2.trans b2.symm, ?_, ?_⟩
  · rcases hc with hc | hc <;> simp [LikeState.nameVaryParams, hc, LikeState.listVaryParams, a1]
  · rcases hc with hc | hc <;> simp [LikeState.getVaryParams, hc, LikeState.listVaryParams, b1]
  · intro j k v hk hv
    have hj : j < (freeRows l.st.rows).length := by
      rw [← a2]; exact (List.getElem?_eq_some_iff.1 hk).1
    have hji := List.getElem?_eq_getElem hj
    have e1 := a3 j _ hji
    obtain ⟨r, e2, e3⟩ := b3 j _ hji
    obtain ⟨r', e4, e5⟩ := (mem_freeRows _ _).1 (List.getElem_mem hj)
    rw [e2] at e4; cases e4
    rw [hk] at e1
    exact ⟨_, r, (h.bwd _ k e1.symm).2, e2, e5, by rw [hv] at e3; cases e3; rfl⟩
  · intro k i r hk hi hr hv
    have hm := (mem_freeRows l.st.rows i).2 ⟨r, hr, hv⟩
    obtain ⟨j, hj, he⟩ := List.getElem_of_mem hm
    have hji : (freeRows l.st.rows)[j]? = some i := by rw [List.getElem?_eq_getElem hj, he]
    have e1 := a3 j i hji
    rw [h.fwd k i (Or.inl hk) hi] at e1
    exact List.mem_of_getElem? e1

/-- A parameter set with the documented user-defined key `my_param` (`GeneralRVModel`, model.py 270-275) and an instrument. -/
def customParams : Params Int :=
  (((Params.init (0 : Int) 1 .perTcSecoswSesinwK none).setItem (.other "my_param") { value := 1 }).setItem
    (.inst .gamma "_j") { value := 7 })

/-- C03 is false with a user-defined key: the vector has nine rows, only eight names, so `names` no longer labels the rows. -/
theorem C03_names_violated : ∃ s, VState.init customParams = .ok s ∧ ¬ NamesLabelRows s := by
  refine ⟨okState (VState.init customParams), by decide +kernel, ?_⟩
  intro h
  exact absurd h.1 (by decide +kernel)

/-- ... and once a likelihood adds a key, the free-parameter names are shifted: the new parameter's row 9 is free, but
`name_vary_params` looks up `names[9]`, which does not exist, and raises. -/
theorem C03_name_vary_violated : ∃ s s', VState.init customParams = .ok s ∧ s.addLikelihood [.inst .jit "_j"] [] = .ok s' ∧
    s'.indices.get? (.inst .jit "_j") = some 9 ∧ s'.names[8]? = some (.inst .jit "_j") ∧
    (LikeState.nameVaryParams { st := s', cache := none }).2 = .error .indexError := by
  refine ⟨okState (VState.init customParams), okState ((okState (VState.init customParams)).addLikelihood [.inst .jit "_j"] []), ?_⟩
  decide +kernel

/-! ## C04, C05 -/

/-- C04: with a current cache (`vary_params` absent or just listed) an array of the right length is accepted, is what
`get_vary_params` returns afterwards, changes no flag and no fixed row; with `fast=False` the dictionary then agrees with the
vector, with `fast=True` it is untouched. -/
theorem C04_set_get [Zero α] (l : LikeState α) (hs : Built l.st)
    (hc : l.cache = none ∨ l.cache = some (freeRows l.st.rows)) (xs : List α) (fast : Bool)
    (hx : xs.length = (l.st.rows.filter Row.vary).length) :
    ∃ l', l.setVaryParams xs fast = (l', none) ∧ l'.getVaryParams.2 = .ok xs ∧
      (∀ (i : Nat) r, l.st.rows[i]? = some r → ∃ r', l'.st.rows[i]? = some r' ∧ r'.vary = r.vary ∧ r'.scale = r.scale ∧
        r'.linear = r.linear ∧ (r.vary = false → r' = r)) ∧
      (fast = true → l'.st.params = l.st.params) ∧
      (fast = false → ∀ k q, l.st.params.items.get? k = some q → ∃ i r, l.st.indices.get? k = some i ∧
        l'.st.rows[i]? = some r ∧ l'.st.params.items.get? k = some { q with value := r.value }) := by
  have hlen : xs.length = (freeRows l.st.rows).length := by rw [length_freeRows]; exact hx
  have href : l.refreshFor xs.length = { l with cache := some (freeRows l.st.rows) } := by
    rcases hc with hc | hc
    · simp [LikeState.refreshFor, hc, LikeState.listVaryParams]
    · simp only [LikeState.refreshFor, hc, hlen]
      simp [← hc]
  obtain ⟨a1, a2⟩ := writeVals_ok (freeRows l.st.rows) xs l.st.rows (nodup_freeRows _) (freeRows_lt _) hlen
  obtain ⟨b1, b2⟩ := writeVals_flags (freeRows l.st.rows) xs l.st.rows
  have hget : readVals (writeVals (freeRows l.st.rows) xs l.st.rows).1 (freeRows l.st.rows) = .ok xs := by
    obtain ⟨vs, c1, c2, c3⟩ := readVals_ok (writeVals (freeRows l.st.rows) xs l.st.rows).1 (freeRows l.st.rows)
      (fun i hi => by rw [b1.1]; exact freeRows_lt _ i hi)
    rw [c1]
    congr 1
    apply List.ext_getElem?
    intro j
    by_cases hj : j < (freeRows l.st.rows).length
    · have hji := List.getElem?_eq_getElem hj
      obtain ⟨r, d1, d2⟩ := c3 j _ hji
      obtain ⟨r', x, e1, e2, e3⟩ := a2 j _ hji
      rw [d1] at e3; cases e3
      rw [d2, e2]
    · rw [List.getElem?_eq_none (by omega), List.getElem?_eq_none (by omega)]
  have hrows : ∀ (i : Nat) r, l.st.rows[i]? = some r → ∃ r', (writeVals (freeRows l.st.rows) xs l.st.rows).1[i]? = some r' ∧
      r'.vary = r.vary ∧ r'.scale = r.scale ∧ r'.linear = r.linear ∧ (r.vary = false → r' = r) := by
    intro i r hr
    obtain ⟨r', e1, e2, e3, e4⟩ := b1.2 i r hr
    refine ⟨r', e1, e2, e3, e4, ?_⟩
    intro hv
    have hni : i ∉ freeRows l.st.rows := by
      rw [mem_freeRows]
      rintro ⟨r2, h1, h2⟩
      rw [hr] at h1; cases h1
      rw [hv] at h2; cases h2
    rw [b2 i hni, hr] at e1
    cases e1; rfl
  generalize hW : writeVals (freeRows l.st.rows) xs l.st.rows = W at *
  obtain ⟨rows', err⟩ := W
  simp only at a1 b1 hget hrows
  subst a1
  have hbuilt : Built ({ l.st with rows := rows' } : VState α) := .write _ _ hs b1.1
  cases fast with
  | true =>
    refine ⟨{ st := { l.st with rows := rows' }, cache := some (freeRows l.st.rows) }, ?_, ?_, hrows, fun _ => rfl, by simp⟩
    · simp [LikeState.setVaryParams, href, hW]
    · simpa [LikeState.getVaryParams] using hget
  | false =>
    obtain ⟨s2, d1, _, d3, _, d5, _, _, _, d8, _⟩ := toDict_spec hbuilt.inv.1 hbuilt.inv.2
    refine ⟨{ st := s2, cache := some (freeRows l.st.rows) }, ?_, ?_, ?_, by simp, ?_⟩
    · simp [LikeState.setVaryParams, href, hW, d1]
    · simp only [LikeState.getVaryParams, d3]; exact hget
    · simp only [d3]; exact hrows
    · intro _ k q hq
      obtain ⟨i, r, e1, e2, e3⟩ := d8 k q hq
      exact ⟨i, r, e1, by simp only [d3]; exact e2, e3⟩

/- non-vacuity: the example state has twelve free rows -/
example : Built exampleState ∧ (exampleState.rows.filter Row.vary).length = 12 :=
  ⟨exampleState_built, by decide +kernel⟩

/-- C05, first half: with a current cache an array of any other length always raises, and the parameter dictionary is unchanged. -/
theorem C05_wrong_length_partial (l : LikeState α)
    (hc : l.cache = none ∨ l.cache = some (freeRows l.st.rows)) (xs : List α) (fast : Bool)
    (hx : xs.length ≠ (l.st.rows.filter Row.vary).length) :
    (l.setVaryParams xs fast).2 ≠ none ∧ (l.setVaryParams xs fast).1.st.params = l.st.params := by
  have hlen : xs.length ≠ (freeRows l.st.rows).length := by rw [length_freeRows]; exact hx
  have href : l.refreshFor xs.length = { l with cache := some (freeRows l.st.rows) } := by
    rcases hc with hc | hc
    · simp [LikeState.refreshFor, hc, LikeState.listVaryParams]
    · simp only [LikeState.refreshFor, hc]
      rw [if_pos (Ne.symm hlen)]
      rfl
  have hbad := writeVals_bad (freeRows l.st.rows) xs l.st.rows hlen
  simp only [LikeState.setVaryParams, href, Option.getD_some]
  generalize writeVals (freeRows l.st.rows) xs l.st.rows = W at hbad
  obtain ⟨rows', err⟩ := W
  cases err with
  | none => exact absurd rfl hbad
  | some e => exact ⟨by simp, rfl⟩

/-- A one-planet likelihood state used as witness below (built from a user parameter set). -/
def witnessState : VState Int := okState (VState.init (Params.init (0 : Int) 1 .perTcSecoswSesinwK none))

theorem witnessState_built : Built witnessState :=
  .model _ _ (.new (0 : Int) 1 .perTcSecoswSesinwK none (by decide)) (by decide +kernel)

/-- C05, second half, is false: an array that is too long (or too short) is rejected only after the values have been written. -/
theorem C05_no_trace_violated :
    ∃ l : LikeState Int, Built l.st ∧ l.cache = none ∧ (l.st.rows.filter Row.vary).length = 5 ∧
      (l.setVaryParams [1, 2, 3, 4, 5, 6] true).2 = some .assertionError ∧
      (l.setVaryParams [1, 2, 3, 4, 5, 6] true).1.st.rows ≠ l.st.rows ∧
      (l.setVaryParams [1, 2] true).2 = some .indexError ∧
      (l.setVaryParams [1, 2] true).1.st.rows ≠ l.st.rows := by
  refine ⟨⟨witnessState, none⟩, witnessState_built, rfl, ?_⟩
  decide +kernel

/-! ## C06 -/

/-- Calls and flag edits on one likelihood. -/
inductive VOp (α : Type)
  | set (xs : List α) (fast : Bool)
  | get
  | name
  | list
  | flagThenList (i : Nat) (b : Bool)

/-- Effect on the state (also when the call raises). -/
def VOp.run (l : LikeState α) : VOp α → LikeState α
  | .set xs fast => (l.setVaryParams xs fast).1
  | .get => l.getVaryParams.1
  | .name => l.nameVaryParams.1
  | .list => l.listVaryParams
  | .flagThenList i b => LikeState.listVaryParams { l with st := l.st.setFlag i b }

theorem setVary_flags (l : LikeState α) (xs : List α) (fast : Bool) :
    SameFlags l.st.rows (l.setVaryParams xs fast).1.st.rows ∧
    (l.setVaryParams xs fast).1.cache = (l.refreshFor xs.length).cache := by
  have hst : (l.refreshFor xs.length).st = l.st := by
    unfold LikeState.refreshFor
    cases l.cache with
    | none => rfl
    | some c => simp only; split <;> rfl
  unfold LikeState.setVaryParams
  simp only
  have hf := (writeVals_flags ((l.refreshFor xs.length).cache.getD []) xs (l.refreshFor xs.length).st.rows).1
  generalize writeVals ((l.refreshFor xs.length).cache.getD []) xs (l.refreshFor xs.length).st.rows = W at hf
  obtain ⟨rows', err⟩ := W
  rw [hst] at hf
  cases err with
  | some e => exact ⟨hf, rfl⟩
  | none =>
    simp only
    split
    · exact ⟨hf, rfl⟩
    · have : ∀ st, VState.vectorToDict ({ (l.refreshFor xs.length).st with rows := rows' } : VState α) = .ok st → st.rows = rows' := by
        intro st h
        unfold VState.vectorToDict at h
        split at h <;> cases h
        rfl
      split
      · next st h => exact ⟨by simp only [this st h]; exact hf, rfl⟩
      · exact ⟨hf, rfl⟩

/-- C06, provable part: as long as every flag edit is followed by `list_vary_params` before the next call, after any history of
calls (including calls that raised) the cached list is absent or is the list of the rows whose flag is set now; hence, by
`C04_set_get`, `C05_wrong_length_partial` and `C03_same_order_partial`, all calls act on the current flags. -/
theorem C06_current_flags_partial (ops : List (VOp α)) (l : LikeState α)
    (hc : l.cache = none ∨ l.cache = some (freeRows l.st.rows)) :
    (ops.foldl VOp.run l).cache = none ∨
      (ops.foldl VOp.run l).cache = some (freeRows (ops.foldl VOp.run l).st.rows) := by
  induction ops generalizing l with
  | nil => exact hc
  | cons op t ih =>
    rw [List.foldl_cons]
    apply ih
    cases op with
    | set xs fast =>
      obtain ⟨h1, h2⟩ := setVary_flags l xs fast
      show (l.setVaryParams xs fast).1.cache = none ∨ (l.setVaryParams xs fast).1.cache = some (freeRows (l.setVaryParams xs fast).1.st.rows)
      rw [h2, h1.freeRows]
      unfold LikeState.refreshFor
      rcases hc with hc | hc
      · right; simp [hc, LikeState.listVaryParams]
      · right
        rw [hc]; simp only
        split
        · rfl
        · exact hc
    | get =>
      show l.getVaryParams.1.cache = none ∨ l.getVaryParams.1.cache = some (freeRows l.getVaryParams.1.st.rows)
      unfold LikeState.getVaryParams
      rcases hc with hc | hc
      · right; simp [hc, LikeState.listVaryParams]
      · right; rw [hc]; simp only; exact hc
    | name =>
      show l.nameVaryParams.1.cache = none ∨ l.nameVaryParams.1.cache = some (freeRows l.nameVaryParams.1.st.rows)
      unfold LikeState.nameVaryParams
      rcases hc with hc | hc
      · right; simp [hc, LikeState.listVaryParams]
      · right; rw [hc]; simp only; exact hc
    | list => right; rfl
    | flagThenList i b => right; rfl

/-- C06, self-repair: if the cached list has a length different from the array's, `set_vary_params` refreshes it first. -/
theorem C06_refresh (l : LikeState α) (c : List Nat) (hc : l.cache = some c) (xs : List α) (fast : Bool)
    (hx : xs.length ≠ c.length) : (l.setVaryParams xs fast).1.cache = some (freeRows l.st.rows) := by
  rw [(setVary_flags l xs fast).2]
  simp [LikeState.refreshFor, hc, Ne.symm hx, LikeState.listVaryParams]

example : (⟨witnessState, none⟩ : LikeState Int).cache = none ∨
    (⟨witnessState, none⟩ : LikeState Int).cache = some (freeRows witnessState.rows) := Or.inl rfl

/-- C06 in full is false: after one call, swapping which of two parameters is free (same count) is not noticed - `set_vary_params`
then overwrites the fixed parameter and leaves the free one. -/
theorem C06_stale_violated :
    ∃ l : LikeState Int, Built l.st ∧ l.cache = none ∧
      let l1 : LikeState Int := { l with st := (l.st.setFlag 0 false) }
      let l2 := l1.getVaryParams.1
      let l3 : LikeState Int := { l2 with st := (l2.st.setFlag 0 true).setFlag 1 false }
      let r := l3.setVaryParams [10, 20, 30, 40] true
      r.2 = none ∧ (r.1.st.rows.map Row.vary) = [true, false, true, true, true, false, false] ∧
      (r.1.st.rows.map Row.value) = [0, 10, 20, 30, 40, 0, 0] := by
  refine ⟨⟨witnessState, none⟩, witnessState_built, rfl, ?_⟩
  decide +kernel

/-! ## C07 -/

/-- C07: unpickling gives the same planets, basis, letters and the same mapping, for every parameter set that contains the keys of
its own basis. -/
theorem C07_mapping (dflt : α) (p : Params α) (hn : p.items.keys.Nodup)
    (hd : ∀ q ∈ p.basis.words, ∀ n, 1 ≤ n → n ≤ p.numPlanets → Key.orb q n ∈ p.items.keys) :
    (p.unpickle dflt).numPlanets = p.numPlanets ∧ (p.unpickle dflt).basis = p.basis ∧
    (p.unpickle dflt).letters = p.letters ∧ (p.unpickle dflt).planetParameters = p.basis.words ∧
    ∀ k, (p.unpickle dflt).items.get? k = p.items.get? k := by
  refine ⟨rfl, rfl, rfl, rfl, ?_⟩
  intro k
  unfold Params.unpickle
  simp only
  rw [Dict.get?_update _ _ hn]
  cases hk : p.items.get? k with
  | some v => rfl
  | none =>
    have : k ∉ (Params.init dflt p.numPlanets p.basis p.letters).items.keys := by
      rw [Params.init_keys, mem_defaultKeys]
      rintro ⟨q, n, rfl, h1, h2, h3⟩
      have := hd q h1 n h2 h3
      rw [← Dict.get?_isSome_iff, hk] at this
      cases this
    rw [(Dict.get?_eq_none_iff _ _).2 this]
    rfl

/-- C07: if the basis keys come first in canonical order the result is identical, order included. -/
theorem C07_identical (dflt : α) (p : Params α) (rest : List Key) (hn : p.items.keys.Nodup)
    (hp : p.planetParameters = p.basis.words)
    (ho : p.items.keys = defaultKeys p.numPlanets p.basis.words ++ rest) : p.unpickle dflt = p := by
  have hm := (C07_mapping dflt p hn (fun q hq n h1 h2 => by
    rw [ho, List.mem_append, mem_defaultKeys]; exact Or.inl ⟨q, n, rfl, hq, h1, h2⟩)).2.2.2.2
  have hkeys : (p.unpickle dflt).items.keys = p.items.keys := by
    have h0 := Params.init_keys dflt p.numPlanets p.basis p.letters
    have : ∀ (l1 l2 : Dict Key (Parameter α)) (d : Dict Key (Parameter α)),
        d.keys = l1.keys → (∀ k ∈ l2.keys, k ∉ l1.keys) → l2.keys.Nodup →
        (d.update (l1 ++ l2)).keys = l1.keys ++ l2.keys := by
      intro l1 l2 d hd hdis hnd
      have e1 : d.update (l1 ++ l2) = (d.update l1).update l2 := by
        unfold Dict.update; rw [List.foldl_append]
      rw [e1]
      have e2 : (d.update l1).keys = l1.keys := by
        rw [Dict.keys_update_of_subset _ _ (by intro k hk; rw [hd]; exact hk), hd]
      generalize d.update l1 = d1 at e2
      clear hd e1
      revert d1
      induction l2 generalizing l1 with
      | nil => intro d1 h; simpa [Dict.update, Dict.keys] using h
      | cons x t ih =>
        intro d1 h
        rw [Dict.update_cons]
        have hx : x.1 ∉ d1.keys := by rw [h]; exact hdis x.1 (by simp [Dict.keys])
        have hnd' : x.1 ∉ Dict.keys t ∧ (Dict.keys t).Nodup := by
          simpa [Dict.keys] using hnd
        have := ih (l1 ++ [x]) (by
          intro k hk
          have h1 := hdis k (List.mem_cons_of_mem _ hk)
          unfold Dict.keys at *
          rw [List.map_append, List.mem_append]
          rintro (h2 | h2)
          · exact h1 h2
          · simp at h2; subst h2; exact hnd'.1 hk) hnd'.2 (d1.set x.1 x.2) (by
            rw [Dict.keys_set_of_not_mem _ _ hx, h]; simp [Dict.keys])
        rw [this]
        simp [Dict.keys]
    have hsplit : p.items = p.items.take (defaultKeys p.numPlanets p.basis.words).length ++
        p.items.drop (defaultKeys p.numPlanets p.basis.words).length := (List.take_append_drop _ _).symm
    have k1 : Dict.keys (p.items.take (defaultKeys p.numPlanets p.basis.words).length) = defaultKeys p.numPlanets p.basis.words := by
      unfold Dict.keys at ho ⊢
      rw [List.map_take, ho, List.take_left]
    have k2 : Dict.keys (p.items.drop (defaultKeys p.numPlanets p.basis.words).length) = rest := by
      unfold Dict.keys at ho ⊢
      rw [List.map_drop, ho, List.drop_left]
    have hnd := hn
    rw [ho, List.nodup_append] at hnd
    unfold Params.unpickle
    simp only
    rw [hsplit, this _ _ _ (by rw [h0, k1]) (by
      intro k hk; rw [k1]; rw [k2] at hk
      intro h; exact hnd.2.2 k h k hk rfl) (by rw [k2]; exact hnd.2.1), k1, k2, ← hsplit, ho]
  have hitems : (p.unpickle dflt).items = p.items :=
    Dict.ext_of_keys _ _ (by rw [hkeys]; exact hn) hkeys (fun k _ => hm k)
  have e : p.unpickle dflt = { p with items := (p.unpickle dflt).items } := by
    unfold Params.unpickle Params.init
    simp only
    cases p
    simp at hp
    simp [hp]
  rw [e, hitems]

example : exampleParams.items.keys =
    defaultKeys exampleParams.numPlanets exampleParams.basis.words ++ [.dvdt, .inst .gamma "_j", .inst .jit "_j"] ∧
    exampleParams.items.keys.Nodup := by decide +kernel

/-! ## C08 -/

/-- C08, provable part: the construction succeeds and gives every key its own row whenever the keys without index (those declared after
the model was created, or user keys that the model could not place but whose rows are not yet counted) are all among this
likelihood's keys. `IdxInv s s.rows.length` says that the rows counted so far are those of the indexed keys.
Missing: keys declared before the model was created that `init_index_dict` does not recognise, and keys for a later
likelihood. -/
theorem C08_predeclared_partial [Zero α] (s : VState α) (hs : Built s) (new : List (Key × Parameter α)) (extra decorr : List Key)
    (hk : ∀ k ∈ extra ++ decorr, ∀ p n, k ≠ .orb p n)
    (hnew : ∀ x ∈ new, x.1 ∈ extra ++ decorr ∧ x.2.vary ≠ .blank) :
    let declared : VState α := { s with params := { s.params with items := s.params.items.update new } }
    ∃ s', declared.addLikelihood extra decorr = .ok s' ∧ RowsOwned s' ∧ Synced s' ∧
      (∀ k ∈ extra ++ decorr, k ∈ s'.params.items.keys) ∧
      (∀ k q, declared.params.items.get? k = some q → s'.params.items.get? k = some q) := by
  -- generalised: keys may be declared without an index
  have gen : ∀ (new : List (Key × Parameter α)) (s : VState α), IdxInv s s.rows.length → 
      (∀ k ∈ unindexed s, k ∈ extra ++ decorr) →
      (∀ x ∈ new, x.1 ∈ extra ++ decorr ∧ x.2.vary ≠ .blank) →
      IdxInv ({ s with params := { s.params with items := s.params.items.update new } } : VState α) s.rows.length ∧
      (∀ k ∈ unindexed ({ s with params := { s.params with items := s.params.items.update new } } : VState α), k ∈ extra ++ decorr) := by
    intro new
    induction new with
    | nil => intro s h1 h2 _; exact ⟨h1, h2⟩
    | cons x t ih =>
      intro s h1 h2 h3
      obtain ⟨hx, hxv⟩ := h3 x (by simp)
      have hxo : ∀ p n, x.1 ≠ .orb p n := hk _ hx
      have step : IdxInv ({ s with params := s.params.setItem x.1 x.2 } : VState α) s.rows.length ∧
          (∀ k ∈ unindexed ({ s with params := s.params.setItem x.1 x.2 } : VState α), k ∈ extra ++ decorr) := by
        have hun : ∀ k ∈ unindexed ({ s with params := s.params.setItem x.1 x.2 } : VState α), k ∈ extra ++ decorr := by
          intro k hk'
          unfold unindexed at hk'
          rw [List.mem_filter] at hk'
          have hm : k ∈ (s.params.items.set x.1 x.2).keys := hk'.1
          rw [Dict.mem_keys_set] at hm
          rcases hm with rfl | hm
          · exact hx
          · exact h2 k (by unfold unindexed; rw [List.mem_filter]; exact ⟨hm, hk'.2⟩)
        refine ⟨?_, hun⟩
        by_cases hrel : IdxInv.Rel s x.1
        · exact h1.edit x.1 x.2 hrel hxv
        · have hnm : x.1 ∉ s.params.items.keys := fun h => hrel (Or.inl h)
          have hnd : x.1 ≠ .dvdt := fun h => hrel (Or.inr (Or.inl h))
          have hnc : x.1 ≠ .curv := fun h => hrel (Or.inr (Or.inr h))
          have hno : s.indices.get? x.1 = none := by
            cases hg : s.indices.get? x.1 with
            | none => rfl
            | some i =>
              exfalso
              apply hnm
              refine (h1.ext x.1 i ?_ ?_ hg).1
              · cases hc : x.1 <;> first | rfl | exact absurd hc (hxo _ _)
              · cases hc : x.1 <;> first | rfl | exact absurd hc hnd | exact absurd hc hnc
          refine ⟨Dict.nodup_keys_set _ _ _ h1.nodup, h1.five, ?_, h1.orbIdx, h1.dvdtIdx, h1.curvIdx, ?_, h1.extInj, h1.size, ?_, ?_⟩
          · intro p m
            show Key.orb p m ∈ (s.params.items.set x.1 x.2).keys ↔ p ∈ s.params.basis.words ∧ 1 ≤ m ∧ m ≤ s.params.numPlanets
            rw [Dict.mem_keys_set, ← h1.orb p m]
            constructor
            · rintro (h | h)
              · exact absurd h (hxo p m)
              · exact h
            · exact Or.inr
          · intro k i a b c
            obtain ⟨d, e⟩ := h1.ext k i a b c
            exact ⟨(Dict.mem_keys_set _ _ _ _).2 (Or.inr d), e⟩
          · show s.rows.length + (unindexed _).length = vectorSize (s.params.items.set x.1 x.2)
            rw [vectorSize_set_new _ _ _ hnm hnd hnc, ← h1.count]
            unfold unindexed
            simp only [Params.setItem]
            rw [Dict.keys_set_of_not_mem _ _ hnm, List.filter_append]
            simp [Dict.has, hno]
            omega
          · intro k q hq
            change Dict.get? (s.params.items.set x.1 x.2) k = some q at hq
            rw [Dict.get?_set] at hq
            split at hq
            · cases hq; exact hxv
            · exact h1.noblank k q hq
      exact ih _ step.1 step.2 (fun y hy => h3 y (List.mem_cons_of_mem _ hy))
  obtain ⟨g1, g2⟩ := gen new s hs.inv.1 (by rw [hs.inv.2]; simp) hnew
  obtain ⟨s', h1, h2, _, _, h5, _, _, h8⟩ := likelihood_fresh (s := { s with params := { s.params with items := s.params.items.update new } })
    g1 extra decorr hk g2
  exact ⟨s', h1, owned_of_inv h2.inv h2.ui, synced_of_fresh h2, h5, h8⟩

example : ∀ x ∈ [((Key.inst .jit "_j", { value := 2 }) : Key × Parameter Int)],
    x.1 ∈ ([.inst .gamma "_j", .inst .jit "_j"] ++ [] : List Key) ∧ x.2.vary ≠ .blank := by decide

/-- C08 is false for a decorrelation coefficient declared before the model is created (e.g. in the setup file to give it a prior or a
starting value): the construction of the likelihood raises `IndexError`. -/
theorem C08_predeclared_violated :
    ∃ s, VState.init ((Params.init (0 : Int) 1 .perTcSecoswSesinwK none).setItem (.other "c1_bis_j") { value := 1 }) = .ok s ∧
      s.addLikelihood [.inst .gamma "_j", .inst .jit "_j"] [.other "c1_bis_j"] = .error .indexError := by
  refine ⟨okState (VState.init ((Params.init (0 : Int) 1 .perTcSecoswSesinwK none).setItem (.other "c1_bis_j") { value := 1 })), ?_⟩
  decide +kernel

/-- C08 is also false when jitters for two instruments are declared between the creation of the model and of the likelihoods: the second
likelihood raises `IndexError`. -/
theorem C08_two_instruments_violated :
    ∃ s1 : VState Int,
      VState.addLikelihood { witnessState with
          params := (witnessState.params.setItem (.inst .jit "_a") { value := 1 }).setItem (.inst .jit "_b") { value := 1 } }
        [.inst .gamma "_a", .inst .jit "_a"] [] = .ok s1 ∧
      s1.addLikelihood [.inst .gamma "_b", .inst .jit "_b"] [] = .error .indexError := by
  refine ⟨okState (VState.addLikelihood { witnessState with
          params := (witnessState.params.setItem (.inst .jit "_a") { value := 1 }).setItem (.inst .jit "_b") { value := 1 } }
        [.inst .gamma "_a", .inst .jit "_a"] []), ?_⟩
  decide +kernel

end Radvel
