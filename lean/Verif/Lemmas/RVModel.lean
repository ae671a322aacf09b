import Verif.Lemmas.BasisReal

namespace Radvel
open Real

/-! ### conversions of the array -/

/-- The new row `j` of a block. -/
def Block.at (v : Block) : Nat → ℝ
  | 0 => v.x0
  | 1 => v.x1
  | 2 => v.x2
  | 3 => v.x3
  | _ => v.x4

theorem convBlock_spec (f : Block → Block) (flags : List Nat) (flag : Bool) (rows : List (Row ℝ)) (i : Nat) (v : Block)
    (hl : 5 * i + 5 ≤ rows.length) (hv : ∀ j : Nat, j < 5 → (rows[5 * i + j]?).map Row.value = some (v.at j)) :
    ∃ rows', convBlock f flags flag rows i = .ok rows' ∧ rows'.length = rows.length ∧
      (∀ j : Nat, j < 5 → rows'[5 * i + j]? = (rows[5 * i + j]?).map (fun r => r.conv flags flag j ((f v).at j))) ∧
      (∀ a : Nat, (∀ j : Nat, j < 5 → a ≠ 5 * i + j) → rows'[a]? = rows[a]?) := by
  obtain ⟨r0, h0⟩ : ∃ r, rows[5 * i]? = some r := ⟨_, List.getElem?_eq_getElem (by omega)⟩
  obtain ⟨r1, h1⟩ : ∃ r, rows[5 * i + 1]? = some r := ⟨_, List.getElem?_eq_getElem (by omega)⟩
  obtain ⟨r2, h2⟩ : ∃ r, rows[5 * i + 2]? = some r := ⟨_, List.getElem?_eq_getElem (by omega)⟩
  obtain ⟨r3, h3⟩ : ∃ r, rows[5 * i + 3]? = some r := ⟨_, List.getElem?_eq_getElem (by omega)⟩
  obtain ⟨r4, h4⟩ : ∃ r, rows[5 * i + 4]? = some r := ⟨_, List.getElem?_eq_getElem (by omega)⟩
  have v0 := hv 0 (by omega)
  have v1 := hv 1 (by omega)
  have v2 := hv 2 (by omega)
  have v3 := hv 3 (by omega)
  have v4 := hv 4 (by omega)
  simp only [Nat.add_zero, h0, h1, h2, h3, h4, Option.map_some, Block.at, Option.some.injEq] at v0 v1 v2 v3 v4
  refine ⟨_, by simp only [convBlock, h0, h1, h2, h3, h4]; rfl, by simp, ?_, ?_⟩
  · intro j hj
    have hvv : (⟨r0.value, r1.value, r2.value, r3.value, r4.value⟩ : Block) = v := by rw [v0, v1, v2, v3, v4]
    simp only [List.getElem?_set, List.length_set, hvv]
    have : j = 0 ∨ j = 1 ∨ j = 2 ∨ j = 3 ∨ j = 4 := by omega
    have hlt : ∀ c, c < 5 → 5 * i + c < rows.length := by intro c hc; omega
    have hlt0 : 5 * i < rows.length := by omega
    rcases this with rfl | rfl | rfl | rfl | rfl <;>
      (simp only [Nat.add_zero, h0, h1, h2, h3, h4, Block.at, Option.map_some]; simp [hlt, hlt0])
  · intro a ha
    have a0 := ha 0 (by omega)
    have a1 := ha 1 (by omega)
    have a2 := ha 2 (by omega)
    have a3 := ha 3 (by omega)
    have a4 := ha 4 (by omega)
    simp only [Nat.add_zero] at a0
    simp only [List.getElem?_set_ne (Ne.symm a0), List.getElem?_set_ne (Ne.symm a1), List.getElem?_set_ne (Ne.symm a2),
      List.getElem?_set_ne (Ne.symm a3), List.getElem?_set_ne (Ne.symm a4)]

theorem convBlocks_spec (f : Block → Block) (flags : List Nat) (flag : Bool) (N : Nat) (rows : List (Row ℝ)) (v : Nat → Block)
    (hl : 5 * N ≤ rows.length)
    (hv : ∀ i j : Nat, i < N → j < 5 → (rows[5 * i + j]?).map Row.value = some ((v i).at j)) :
    ∃ rows', (List.range N).foldlM (fun rows i => convBlock f flags flag rows i) rows = .ok rows' ∧
      rows'.length = rows.length ∧
      (∀ i j : Nat, i < N → j < 5 → rows'[5 * i + j]? = (rows[5 * i + j]?).map (fun r => r.conv flags flag j ((f (v i)).at j))) ∧
      (∀ a : Nat, 5 * N ≤ a → rows'[a]? = rows[a]?) := by
  induction N with
  | zero => exact ⟨rows, rfl, rfl, by omega, fun _ _ => rfl⟩
  | succ N ih =>
    obtain ⟨r1, e1, e2, e3, e4⟩ := ih (by omega) (fun i j hi hj => hv i j (by omega) hj)
    obtain ⟨r2, f1, f2, f3, f4⟩ := convBlock_spec f flags flag r1 N (v N) (by omega) (by
      intro j hj
      rw [e4 _ (by omega)]
      exact hv N j (by omega) hj)
    refine ⟨r2, ?_, by omega, ?_, ?_⟩
    · rw [List.range_succ, List.foldlM_append, e1]
      simp only [List.foldlM_cons, List.foldlM_nil]
      show convBlock f flags flag r1 N >>= _ = _
      rw [f1]; rfl
    · intro i j hi hj
      by_cases h : i = N
      · subst h; rw [f3 j hj, e4 _ (by omega)]
      · rw [f4 _ (by intro c hc; omega), e3 i j (by omega) hj]
    · intro a ha
      rw [f4 a (by intro c hc; omega), e4 a (by omega)]

/-! ### the vector of a parameter set -/

theorem GoodParams.model {p : Params ℝ} (h : GoodParams p) :
    ∃ s, VState.init p = .ok s ∧ Fresh s ∧ s.params = p ∧ s.indices = initIndexDict p := by
  obtain ⟨hi, hu⟩ := h.inv [] []
  obtain ⟨s1, a1, a2, a3, a4, _, _⟩ := sync_fresh hi hu
  obtain ⟨s2, b1, b2, _, b4, b5, _⟩ := names_fresh a2
  exact ⟨s2, by simp only [VState.init, a1]; exact b1, b2, b4.trans a3, b5.trans a4⟩

/-- Values of the planets of a parameter set. -/
noncomputable def valsOf (p : Params ℝ) (m : Nat) : Vals := fun x => (valueOf p x m).getD 0

theorem Complete.hasVals {p : Params ℝ} (h : Complete p) : HasVals p (valsOf p) := by
  refine ⟨h.1, ?_⟩
  intro x m hx h1 h2
  obtain ⟨q, hq⟩ := Dict.exists_get?_of_mem _ (h.2 x hx m ⟨h1, h2⟩)
  exact ⟨q, hq, by simp [valsOf, valueOf, hq]⟩

theorem GoodParams.complete {p : Params ℝ} (h : GoodParams p) : Complete p :=
  ⟨h.nodup, fun x hx m hm => (h.orb x m).2 ⟨hx, hm⟩⟩

theorem Fresh.wordRow {s : VState ℝ} (h : Fresh s) (x : PName) (m : Nat)
    (hx : x ∈ s.params.basis.words) (hm : IsPlanet s.params m) :
    ∃ r : Row ℝ, s.rows[5 * (m - 1) + x.offset]? = some r ∧ valueOf s.params x m = some r.value := by
  obtain ⟨q, hq⟩ := Dict.exists_get?_of_mem _ ((h.inv.orb x m).2 ⟨hx, hm⟩)
  exact ⟨mkRow q, h.rows _ q _ hq (h.inv.orbIdx x m hm.1 hm.2), by simp [valueOf, hq, mkRow]⟩

theorem Fresh.trendRow {s : VState ℝ} (h : Fresh s) (key : Key) (hk : key = .dvdt ∨ key = .curv) :
    trendCoef s key = .ok (trendOf s.params key) := by
  have hsz := h.inv.size
  obtain ⟨i, hi, hlt⟩ : ∃ i, s.indices.get? key = some i ∧ i < s.rows.length := by
    rcases hk with rfl | rfl
    · exact ⟨_, h.inv.dvdtIdx, by omega⟩
    · exact ⟨_, h.inv.curvIdx, by omega⟩
  unfold trendCoef trendOf
  rw [hi]
  cases hq : s.params.items.get? key with
  | some q => simp [h.rows key q i hq hi, mkRow]
  | none =>
    have hrel : IdxInv.Rel s key := by rcases hk with rfl | rfl <;> simp [IdxInv.Rel]
    have : s.rows[i]? = some Row.zero := by
      apply h.blank i hlt
      intro k hk' hik
      have := h.inv.inj (.inl hk') hrel hik hi
      subst this
      exact (Dict.get?_eq_none_iff _ _).1 hq hk'
    simp [this, Row.zero]

/-- The five values of planet `m` in row order. -/
noncomputable def blockOf (b : BasisName) (v : Vals) : Block :=
  match b.words with
  | [a0, a1, a2, a3, a4] => ⟨v a0, v a1, v a2, v a3, v a4⟩
  | _ => ⟨0, 0, 0, 0, 0⟩

theorem blockOf_at (b : BasisName) (hb : b ≠ .perTcTpEWK) (v : Vals) (x : PName) (hx : x ∈ b.words) :
    (blockOf b v).at x.offset = v x := by
  cases b <;> first | exact absurd rfl hb | (cases x <;> first | rfl | exact absurd hx (by decide))

theorem word_at (b : BasisName) (hb : b ≠ .perTcTpEWK) (j : Nat) (hj : j < 5) : ∃ x ∈ b.words, x.offset = j := by
  revert j
  cases b <;> first | exact absurd rfl hb | decide

theorem vToSynthBlock_eq (b : BasisName) (hb : b ≠ .perTcTpEWK) (v : Vals) :
    vToSynthBlock b (blockOf b v) = blockOf .perTpEWK (valOf (synthOfVals b v)) := by
  cases b <;> first | exact absurd rfl hb | rfl

theorem vFromSynthBlock_eq (nb : BasisName) (hb : nb ≠ .perTcTpEWK) (v : Vals) :
    vFromSynthBlock nb (blockOf .perTpEWK v) = blockOf nb (valOf (synthOfVals .perTpEWK v)) := by
  cases nb <;> first | exact absurd rfl hb | rfl

theorem Fresh.blocks {s : VState ℝ} (h : Fresh s) (i j : Nat) (hi : i < s.params.numPlanets) (hj : j < 5) :
    (s.rows[5 * i + j]?).map Row.value = some ((blockOf s.params.basis (valsOf s.params (i + 1))).at j) := by
  obtain ⟨x, hx, rfl⟩ := word_at s.params.basis h.inv.five j hj
  obtain ⟨r, h1, h2⟩ := h.wordRow x (i + 1) hx ⟨by omega, by omega⟩
  rw [blockOf_at _ h.inv.five _ x hx]
  simp only [Nat.add_sub_cancel] at h1
  rw [h1]
  simp [valsOf, h2]

theorem conv_value (o : Option (Row ℝ)) (v : ℝ) (flags : List Nat) (flag : Bool) (j : Nat) (x : ℝ) (h : o.map Row.value = some x) :
    (o.map (fun r => r.conv flags flag j v)).map Row.value = some v := by
  cases o with
  | none => simp at h
  | some r => simp [Row.conv]

theorem vToSynth_spec {s : VState ℝ} (h : Fresh s) :
    ∃ rows', vToSynth s.params.basis s.params.numPlanets s.rows = .ok rows' ∧ rows'.length = s.rows.length ∧
      (∀ i j : Nat, i < s.params.numPlanets → j < 5 → (rows'[5 * i + j]?).map Row.value =
        some ((blockOf .perTpEWK (valOf (synthOfVals s.params.basis (valsOf s.params (i + 1))))).at j)) ∧
      (∀ a : Nat, 5 * s.params.numPlanets ≤ a → rows'[a]? = s.rows[a]?) := by
  have hsz := h.inv.size
  unfold vToSynth
  by_cases hb : s.params.basis = .perTpEWK ∨ s.params.basis = .perTcTpEWK
  · have hb' : s.params.basis = .perTpEWK := by
      rcases hb with hb | hb
      · exact hb
      · exact absurd hb h.inv.five
    rw [if_pos hb]
    refine ⟨s.rows, rfl, rfl, ?_, fun _ _ => rfl⟩
    intro i j hi hj
    rw [h.blocks i j hi hj, hb']; rfl
  · rw [if_neg hb]
    obtain ⟨rows', e1, e2, e3, e4⟩ := convBlocks_spec (vToSynthBlock s.params.basis) (vToSynthFlags s.params.basis) false
      s.params.numPlanets s.rows (fun i => blockOf s.params.basis (valsOf s.params (i + 1))) (by omega)
      (fun i j hi hj => h.blocks i j hi hj)
    refine ⟨rows', e1, e2, ?_, e4⟩
    intro i j hi hj
    rw [e3 i j hi hj, vToSynthBlock_eq _ h.inv.five]
    exact conv_value _ _ _ _ _ _ (h.blocks i j hi hj)

theorem vFromSynth_spec {s : VState ℝ} (h : Fresh s) (hs : s.params.basis = .perTpEWK) (nb : BasisName)
    (hnb : nb ≠ .perTcTpEWK) :
    ∃ rows', vFromSynth nb s.params.numPlanets s.rows = .ok rows' ∧ rows'.length = s.rows.length ∧
      (∀ i j : Nat, i < s.params.numPlanets → j < 5 → (rows'[5 * i + j]?).map Row.value =
        some ((blockOf nb (valOf (synthOfVals .perTpEWK (valsOf s.params (i + 1))))).at j)) ∧
      (∀ a : Nat, 5 * s.params.numPlanets ≤ a → rows'[a]? = s.rows[a]?) := by
  have hsz := h.inv.size
  have hbl := h.blocks
  rw [hs] at hbl
  unfold vFromSynth
  by_cases hb : nb = .perTpEWK ∨ nb = .perTcTpEWK
  · have hb' : nb = .perTpEWK := by
      rcases hb with hb | hb
      · exact hb
      · exact absurd hb hnb
    rw [if_pos hb]
    refine ⟨s.rows, rfl, rfl, ?_, fun _ _ => rfl⟩
    intro i j hi hj
    rw [hbl i j hi hj, hb']; rfl
  · rw [if_neg hb]
    obtain ⟨rows', e1, e2, e3, e4⟩ := convBlocks_spec (vFromSynthBlock nb) (vFromSynthFlags nb) true
      s.params.numPlanets s.rows (fun i => blockOf .perTpEWK (valsOf s.params (i + 1))) (by omega) hbl
    refine ⟨rows', e1, e2, ?_, e4⟩
    intro i j hi hj
    rw [e3 i j hi hj, vFromSynthBlock_eq _ hnb]
    exact conv_value _ _ _ _ _ _ (hbl i j hi hj)

/-! ### velocities -/

theorem addPlanet_ok (drive : Drive) (t : ℝ) (rows : List (Row ℝ)) (vel : Option ℝ) (i : Nat) (sy : Synth)
    (h : ∀ j : Nat, j < 5 → (rows[5 * i + j]?).map Row.value = some ((blockOf .perTpEWK (valOf sy)).at j)) :
    addPlanet drive t rows vel i = .ok (addNan vel (drive t sy)) := by
  have h0 := h 0 (by omega)
  have h1 := h 1 (by omega)
  have h2 := h 2 (by omega)
  have h3 := h 3 (by omega)
  have h4 := h 4 (by omega)
  simp only [Nat.add_zero, Option.map_eq_some_iff] at h0 h1 h2 h3 h4
  obtain ⟨r0, e0, f0⟩ := h0
  obtain ⟨r1, e1, f1⟩ := h1
  obtain ⟨r2, e2, f2⟩ := h2
  obtain ⟨r3, e3, f3⟩ := h3
  obtain ⟨r4, e4, f4⟩ := h4
  simp only [addPlanet, e0, e1, e2, e3, e4, f0, f1, f2, f3, f4]
  rfl

theorem foldlM_addPlanet (drive : Drive) (t : ℝ) (rows : List (Row ℝ)) (sy : Nat → Synth) (l : List Nat) (vel : Option ℝ)
    (h : ∀ i ∈ l, ∀ j : Nat, j < 5 → (rows[5 * i + j]?).map Row.value = some ((blockOf .perTpEWK (valOf (sy i))).at j)) :
    l.foldlM (addPlanet drive t rows) vel = .ok (l.foldl (fun acc i => addNan acc (drive t (sy i))) vel) := by
  induction l generalizing vel with
  | nil => rfl
  | cons a l ih =>
    rw [List.foldlM_cons, addPlanet_ok drive t rows vel a (sy a) (fun j hj => h a (by simp) j hj)]
    exact ih _ (fun i hi => h i (List.mem_cons_of_mem _ hi))

/-- The planets that contribute. -/
def planetList (N : Nat) : Option Nat → List Nat
  | none => List.range N
  | some i => [i]

theorem modelCall_fresh {s : VState ℝ} (h : Fresh s) (drive : Drive) (tb t : ℝ) (planet : Option Nat)
    (hp : ∀ i ∈ planet, i < s.params.numPlanets) :
    modelCall drive tb s planet t = .ok (addNan (addNan
      ((planetList s.params.numPlanets planet).foldl
        (fun acc i => addNan acc (drive t (synthOfVals s.params.basis (valsOf s.params (i + 1))))) (some 0))
      (some (trendOf s.params .dvdt * (t - tb)))) (some (trendOf s.params .curv * (t - tb) ^ 2))) := by
  obtain ⟨rows', e1, _, e3, _⟩ := vToSynth_spec h
  have hmem : ∀ i ∈ planetList s.params.numPlanets planet, i < s.params.numPlanets := by
    cases planet with
    | none => intro i hi; simpa [planetList] using hi
    | some a => intro i hi; simp [planetList] at hi; subst hi; exact hp i rfl
  have h2 : standardRvCalc drive t s planet = .ok ((planetList s.params.numPlanets planet).foldl
      (fun acc i => addNan acc (drive t (synthOfVals s.params.basis (valsOf s.params (i + 1))))) (some 0)) := by
    unfold standardRvCalc
    rw [e1]
    have := foldlM_addPlanet drive t rows' (fun i => synthOfVals s.params.basis (valsOf s.params (i + 1)))
      (planetList s.params.numPlanets planet) (some 0) (fun i hi j hj => e3 i j (hmem i hi) hj)
    cases planet <;> exact this
  unfold modelCall
  rw [h2, h.trendRow .dvdt (.inl rfl), h.trendRow .curv (.inr rfl)]
  rfl

end Radvel
