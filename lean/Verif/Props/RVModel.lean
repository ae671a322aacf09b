import Verif.Props.Basis
import Mathlib.Algebra.BigOperators.Intervals
import Mathlib.Data.Fintype.Perm

/-!
# C25: the RV model is the sum of its planets and its trend
-/

namespace Radvel
open Real

/-- The orbital elements of planet `m` are `orb m`: `p` converted by `to_synth` stores them. -/
def Elements (p : Params ℝ) (orb : Nat → Synth) : Prop :=
  ∃ dflt q, toSynth dflt p.basis true p = .ok q ∧ ∀ m, IsPlanet p m → SynthPlanet q m (orb m)

theorem SynthPlanet.unique {q : Params ℝ} {m : Nat} {s s' : Synth} (h : SynthPlanet q m s) (h' : SynthPlanet q m s') : s = s' := by
  have a1 := h.per.symm.trans h'.per
  have a2 := h.tp.symm.trans h'.tp
  have a3 := h.e.symm.trans h'.e
  have a4 := h.w.symm.trans h'.w
  have a5 := h.k.symm.trans h'.k
  cases s; cases s'
  simp_all

theorem Elements.eq {p : Params ℝ} {orb : Nat → Synth} (hp : Complete p) (h : Elements p orb) (m : Nat) (hm : IsPlanet p m) :
    orb m = synthOfVals p.basis (valsOf p m) := by
  obtain ⟨dflt, q, h1, h2⟩ := h
  obtain ⟨q', e1, _, _, _, _, e6⟩ := toSynth_values dflt true p hp
  rw [h1] at e1; cases e1
  exact (h2 m hm).unique (e6 m hm)

theorem addNan_foldl_some (f : Nat → ℝ) (n : Nat) (a : ℝ) :
    (List.range n).foldl (fun acc i => addNan acc (some (f (i + 1)))) (some a) = some (a + ∑ m ∈ Finset.Icc 1 n, f m) := by
  induction n with
  | zero => simp
  | succ n ih =>
    rw [List.range_succ, List.foldl_append, ih, Finset.sum_Icc_succ_top (by omega)]
    simp only [List.foldl_cons, List.foldl_nil, addNan]
    congr 1; ring

theorem addNan_none (a : Option ℝ) : addNan a none = none := by cases a <;> rfl

theorem addNan_none_left (a : Option ℝ) : addNan none a = none := by cases a <;> rfl

theorem foldl_none (f : Nat → Option ℝ) (l : List Nat) : l.foldl (fun acc i => addNan acc (f i)) none = none := by
  induction l with
  | nil => rfl
  | cons a l ih => simp [List.foldl_cons, addNan_none_left, ih]

theorem foldl_nan (f : Nat → Option ℝ) (l : List Nat) (a : Option ℝ) (i : Nat) (hi : i ∈ l) (hn : f i = none) :
    l.foldl (fun acc i => addNan acc (f i)) a = none := by
  induction l generalizing a with
  | nil => simp at hi
  | cons b l ih =>
    rw [List.foldl_cons]
    by_cases hb : b = i
    · subst hb; rw [hn, addNan_none, foldl_none]
    · exact ih _ (by simpa [Ne.symm hb] using hi)

/-- C25, sum: for every number of planets and every basis, `RVModel(p)(t)` is the sum of the velocities of the planets' orbits
plus `dvdt (t - time_base) + curv (t - time_base)^2` (`dvdt`, `curv` count as 0 when absent). -/
theorem C25_sum (p : Params ℝ) (h : UserParams p) (orb : Nat → Synth) (ho : Elements p orb) (drive : Drive) (tb t : ℝ)
    (v : Nat → ℝ) (hv : ∀ m, IsPlanet p m → drive t (orb m) = some (v m)) :
    curve drive tb p t = .ok (some (∑ m ∈ Finset.Icc 1 p.numPlanets, v m
      + trendOf p .dvdt * (t - tb) + trendOf p .curv * (t - tb) ^ 2)) := by
  obtain ⟨s, f1, f2, f3, _⟩ := h.good.model
  unfold curve
  rw [f1]
  simp only
  rw [modelCall_fresh f2 _ _ _ none (by simp), f3]
  have : (planetList p.numPlanets none).foldl (fun acc i => addNan acc (drive t (synthOfVals p.basis (valsOf p (i + 1))))) (some 0)
      = (List.range p.numPlanets).foldl (fun acc i => addNan acc (some (v (i + 1)))) (some 0) := by
    apply List.foldl_ext
    intro acc i hi
    have hm : IsPlanet p (i + 1) := ⟨by omega, by simp [planetList] at hi; omega⟩
    rw [← ho.eq h.good.complete _ hm, hv _ hm]
  rw [this, addNan_foldl_some]
  simp [addNan]

/-- C25, nan: if the velocity of some planet is nan, the whole model is nan. -/
theorem C25_nan (p : Params ℝ) (h : UserParams p) (orb : Nat → Synth) (ho : Elements p orb) (drive : Drive) (tb t : ℝ)
    (m : Nat) (hm : IsPlanet p m) (hv : drive t (orb m) = none) : curve drive tb p t = .ok none := by
  obtain ⟨s, f1, f2, f3, _⟩ := h.good.model
  unfold curve
  rw [f1]
  simp only
  rw [modelCall_fresh f2 _ _ _ none (by simp), f3]
  rw [foldl_nan (fun i => drive t (synthOfVals p.basis (valsOf p (i + 1)))) _ _ (m - 1)]
  · rfl
  · simp [planetList]; unfold IsPlanet at hm; omega
  · have : m - 1 + 1 = m := by unfold IsPlanet at hm; omega
    rw [this, ← ho.eq h.good.complete _ hm, hv]

/-- C25, one planet: `model(t, planet_num=m)` is the velocity of planet `m` plus the (whole) trend. -/
theorem C25_planet (p : Params ℝ) (h : UserParams p) (orb : Nat → Synth) (ho : Elements p orb) (drive : Drive) (tb t : ℝ)
    (s : VState ℝ) (hs : VState.init p = .ok s) (m : Nat) (hm : IsPlanet p m) :
    modelCall drive tb s (some (m - 1)) t = .ok ((drive t (orb m)).map
      (fun u => u + trendOf p .dvdt * (t - tb) + trendOf p .curv * (t - tb) ^ 2)) := by
  obtain ⟨s', f1, f2, f3, _⟩ := h.good.model
  rw [f1] at hs; cases hs
  have h1 : m - 1 + 1 = m := by unfold IsPlanet at hm; omega
  rw [modelCall_fresh f2 _ _ _ (some (m - 1)) (by rw [f3]; simp; unfold IsPlanet at hm; omega), f3]
  simp only [planetList, List.foldl_cons, List.foldl_nil, h1, ← ho.eq h.good.complete _ hm]
  cases drive t (orb m) <;> simp [addNan]

/-- The planets of `q` are those of `p` in another order: planet `m` of `p` is planet `σ m` of `q`. -/
structure Renumbered (p q : Params ℝ) (σ : Nat → Nat) : Prop where
  planets : q.numPlanets = p.numPlanets
  maps : ∀ m, IsPlanet p m → IsPlanet p (σ m)
  inj : ∀ m m', IsPlanet p m → IsPlanet p m' → σ m = σ m' → m = m'
  orbits : ∀ orb orb', Elements p orb → Elements q orb' → ∀ m, IsPlanet p m → orb' (σ m) = orb m
  trend : trendOf q .dvdt = trendOf p .dvdt ∧ trendOf q .curv = trendOf p .curv

theorem elements_exist (p : Params ℝ) (h : Complete p) : Elements p (fun m => synthOfVals p.basis (valsOf p m)) := by
  obtain ⟨q', e1, _, _, _, _, e6⟩ := toSynth_values 0 true p h
  exact ⟨0, q', e1, e6⟩

/-- C25, numbering: renumbering the planets (even while changing the basis) does not change the curve. -/
theorem C25_numbering (p q : Params ℝ) (hp : UserParams p) (hq : UserParams q) (σ : Nat → Nat) (hr : Renumbered p q σ)
    (drive : Drive) (tb t : ℝ) : curve drive tb q t = curve drive tb p t := by
  have ep := elements_exist p hp.good.complete
  have eq := elements_exist q hq.good.complete
  set orb := fun m => synthOfVals p.basis (valsOf p m) with horb
  set orb' := fun m => synthOfVals q.basis (valsOf q m) with horb'
  have hor := hr.orbits orb orb' ep eq
  have hpl : ∀ m, IsPlanet q m ↔ IsPlanet p m := by intro m; unfold IsPlanet; rw [hr.planets]
  have hmem : ∀ m, m ∈ Finset.Icc 1 p.numPlanets ↔ IsPlanet p m := by intro m; simp [IsPlanet]
  have himg : (Finset.Icc 1 p.numPlanets).image σ = Finset.Icc 1 p.numPlanets := by
    apply Finset.eq_of_subset_of_card_le
    · intro a ha
      obtain ⟨m, hm, rfl⟩ := Finset.mem_image.1 ha
      exact (hmem _).2 (hr.maps m ((hmem m).1 hm))
    · rw [Finset.card_image_of_injOn]
      intro a ha b hb hab
      exact hr.inj a b ((hmem a).1 ha) ((hmem b).1 hb) hab
  by_cases hnan : ∃ m, IsPlanet p m ∧ drive t (orb m) = none
  · obtain ⟨m, hm, hn⟩ := hnan
    rw [C25_nan p hp orb ep drive tb t m hm hn,
      C25_nan q hq orb' eq drive tb t (σ m) ((hpl _).2 (hr.maps m hm)) (by rw [hor m hm]; exact hn)]
  · push Not at hnan
    have hv : ∀ m, IsPlanet p m → drive t (orb m) = some ((drive t (orb m)).getD 0) := by
      intro m hm
      cases hd : drive t (orb m) with
      | none => exact absurd hd (hnan m hm)
      | some x => rfl
    have hv' : ∀ m, IsPlanet q m → drive t (orb' m) = some ((drive t (orb' m)).getD 0) := by
      intro m hm
      have : m ∈ (Finset.Icc 1 p.numPlanets).image σ := by rw [himg]; exact (hmem m).2 ((hpl m).1 hm)
      obtain ⟨m0, hm0, rfl⟩ := Finset.mem_image.1 this
      rw [hor m0 ((hmem m0).1 hm0)]
      exact hv m0 ((hmem m0).1 hm0)
    rw [C25_sum p hp orb ep drive tb t _ hv, C25_sum q hq orb' eq drive tb t _ hv', hr.trend.1, hr.trend.2, hr.planets]
    have : ∑ m ∈ Finset.Icc 1 p.numPlanets, (drive t (orb' m)).getD 0 = ∑ m ∈ Finset.Icc 1 p.numPlanets, (drive t (orb m)).getD 0 := by
      conv_lhs => rw [← himg]
      rw [Finset.sum_image (fun a ha b hb hab => hr.inj a b ((hmem a).1 ha) ((hmem b).1 hb) hab)]
      exact Finset.sum_congr rfl (fun m hm => by rw [hor m ((hmem m).1 hm)])
    rw [this]

/-- C25, zero amplitude: a planet with `k = 0` whose Kepler equation is solved contributes nothing, whatever its other elements. -/
theorem C25_zero_amplitude (solve : ℝ → ℝ → Option ℝ) (formula : ℝ → ℝ → ℝ → ℝ → ℝ) (hf : CodeFormula formula) (t : ℝ) (s : Synth)
    (hk : s.k = 0) (hn : driveOf solve formula t s ≠ none) : driveOf solve formula t s = some 0 := by
  unfold driveOf rvDrive at *
  rw [hk] at *
  have h0 : ∀ e om E, formula e om 0 E = 0 := by
    intro e om E
    rcases hf with rfl | rfl
    · simp [rvNumpy]
    · simp [rvC]
  split
  · simp [rvCircular]
  · rename_i he
    rw [if_neg he] at hn
    simp only at hn ⊢
    cases hs : solve (meanAnomaly t s.tp (if s.per < 0 then 1e-4 else s.per))
      (if (if s.e < 0 then 0 else s.e) > 0.99 then 0.99 else if s.e < 0 then 0 else s.e) with
    | none => rw [hs] at hn; simp at hn
    | some E => simp [h0]

theorem vToSynth_ok (b : BasisName) (N : Nat) (rows : List (Row ℝ)) (hl : 5 * N ≤ rows.length) :
    ∃ rows', vToSynth b N rows = .ok rows' ∧ rows'.length = rows.length := by
  unfold vToSynth
  split
  · exact ⟨rows, rfl, rfl⟩
  · obtain ⟨rows', e1, e2, _⟩ := convBlocks_spec (vToSynthBlock b) (vToSynthFlags b) false N rows
      (fun i => ⟨(rows[5 * i + 0]?.map Row.value).getD 0, (rows[5 * i + 1]?.map Row.value).getD 0,
        (rows[5 * i + 2]?.map Row.value).getD 0, (rows[5 * i + 3]?.map Row.value).getD 0, (rows[5 * i + 4]?.map Row.value).getD 0⟩) hl (by
      intro i j hi hj
      have : j = 0 ∨ j = 1 ∨ j = 2 ∨ j = 3 ∨ j = 4 := by omega
      rcases this with rfl | rfl | rfl | rfl | rfl <;>
        (rw [List.getElem?_eq_getElem (by omega)]; simp [Block.at]))
    exact ⟨rows', e1, e2⟩

/-- C25 in every reachable state, in particular with any numbers written into the vector by a sampler: the model is the sum of
its single-planet parts `_standard_rv_calc(t, planet_num=i)` and the trend with the coefficients in the vector rows of `dvdt`, `curv`. -/
theorem C25_reachable (s : VState ℝ) (h : Built s) (drive : Drive) (tb t : ℝ) :
    ∃ (u : Nat → Option ℝ) (d c : Row ℝ),
      (∀ m, IsPlanet s.params m → standardRvCalc drive t s (some (m - 1)) = .ok (u m)) ∧
      s.rows[5 * s.params.numPlanets]? = some d ∧ s.rows[5 * s.params.numPlanets + 1]? = some c ∧
      (∀ v : Nat → ℝ, (∀ m, IsPlanet s.params m → u m = some (v m)) →
        modelCall drive tb s none t = .ok (some (∑ m ∈ Finset.Icc 1 s.params.numPlanets, v m
          + d.value * (t - tb) + c.value * (t - tb) ^ 2))) ∧
      (∀ m, IsPlanet s.params m → u m = none → modelCall drive tb s none t = .ok none) := by
  have hi := h.inv.1
  have hsz := hi.size
  obtain ⟨rows', e1, e2⟩ := vToSynth_ok s.params.basis s.params.numPlanets s.rows (by omega)
  let sy : Nat → Synth := fun i => ⟨(rows'[5 * i]?.map Row.value).getD 0, (rows'[5 * i + 1]?.map Row.value).getD 0,
        (rows'[5 * i + 2]?.map Row.value).getD 0, (rows'[5 * i + 3]?.map Row.value).getD 0, (rows'[5 * i + 4]?.map Row.value).getD 0⟩
  have hrow : ∀ i, i < s.params.numPlanets → ∀ j : Nat, j < 5 → (rows'[5 * i + j]?).map Row.value = some ((blockOf .perTpEWK (valOf (sy i))).at j) := by
    intro i hi j hj
    have : j = 0 ∨ j = 1 ∨ j = 2 ∨ j = 3 ∨ j = 4 := by omega
    rcases this with rfl | rfl | rfl | rfl | rfl <;>
      (rw [List.getElem?_eq_getElem (by omega)]; simp [Block.at, sy, blockOf, BasisName.words, valOf]; rw [List.getElem?_eq_getElem (by omega)]; rfl)
  have hd : s.rows[5 * s.params.numPlanets]? = some _ := List.getElem?_eq_getElem (by omega)
  have hc : s.rows[5 * s.params.numPlanets + 1]? = some _ := List.getElem?_eq_getElem (by omega)
  have hall : standardRvCalc drive t s none = .ok ((List.range s.params.numPlanets).foldl (fun acc i => addNan acc (drive t (sy i))) (some 0)) := by
    unfold standardRvCalc
    rw [e1]
    exact foldlM_addPlanet drive t rows' sy _ (some 0) (fun i hi => hrow i (by simpa using hi))
  have hcall : modelCall drive tb s none t = .ok (addNan (addNan
      ((List.range s.params.numPlanets).foldl (fun acc i => addNan acc (drive t (sy i))) (some 0))
      (some (s.rows[5 * s.params.numPlanets].value * (t - tb)))) (some (s.rows[5 * s.params.numPlanets + 1].value * (t - tb) ^ 2))) := by
    unfold modelCall trendCoef
    rw [hall, hi.dvdtIdx, hi.curvIdx]
    simp only [hd, hc]
    rfl
  refine ⟨fun m => drive t (sy (m - 1)), _, _, ?_, hd, hc, ?_, ?_⟩
  · intro m hm
    unfold standardRvCalc
    rw [e1]
    refine (foldlM_addPlanet drive t rows' sy [m - 1] (some 0) (fun i hi => hrow i ?_)).trans ?_
    · simp at hi; unfold IsPlanet at hm; omega
    · simp only [List.foldl_cons, List.foldl_nil]
      cases drive t (sy (m - 1)) <;> simp [addNan]
  · intro v hv
    rw [hcall]
    have : (List.range s.params.numPlanets).foldl (fun acc i => addNan acc (drive t (sy i))) (some 0)
        = (List.range s.params.numPlanets).foldl (fun acc i => addNan acc (some (v (i + 1)))) (some 0) := by
      apply List.foldl_ext
      intro acc i hi
      have := hv (i + 1) ⟨by omega, by simp at hi; omega⟩
      simp only [Nat.add_sub_cancel] at this
      rw [this]
    rw [this, addNan_foldl_some]
    simp [addNan]
  · intro m hm hn
    rw [hcall, foldl_nan (fun i => drive t (sy i)) _ _ (m - 1) (by simp; unfold IsPlanet at hm; omega) hn]
    rfl

/-- The hypotheses of the C25 theorems hold for three planets in a fitting basis, and its planets have velocities with the circular formula. -/
example : UserParams (Params.init (0 : ℝ) 3 .perTcEWK none) ∧ (∃ orb, Elements (Params.init (0 : ℝ) 3 .perTcEWK none) orb ∧
    ∀ m, IsPlanet (Params.init (0 : ℝ) 3 .perTcEWK none) m → ∃ v, driveOf cSolve rvC 1 (orb m) = some v) ∧
    IsPlanet (Params.init (0 : ℝ) 3 .perTcEWK none) 3 := by
  have hu : UserParams (Params.init (0 : ℝ) 3 .perTcEWK none) := .new _ _ _ _ (by decide)
  refine ⟨hu, ⟨_, elements_exist _ hu.good.complete, ?_⟩, by decide, by decide⟩
  intro m hm
  obtain ⟨h1, h2⟩ := hm
  have h2 : m ≤ 3 := h2
  have he : (synthOfVals (Params.init (0 : ℝ) 3 .perTcEWK none).basis (valsOf (Params.init (0 : ℝ) 3 .perTcEWK none) m)).e = 0 := by
    have : m = 1 ∨ m = 2 ∨ m = 3 := by omega
    rcases this with rfl | rfl | rfl <;> rfl
  unfold driveOf rvDrive
  rw [if_pos he]
  exact ⟨_, rfl⟩

/-- Swapping the two planets of a two-planet system is a renumbering. -/
example (a b : Parameter ℝ) (ha : a.vary ≠ .blank) (hb : b.vary ≠ .blank) :
    let p0 := Params.init (1 : ℝ) 2 .perTpEWK none
    let p := (p0.setItem (.orb .k 1) a).setItem (.orb .k 2) b
    let q := (p0.setItem (.orb .k 1) b).setItem (.orb .k 2) a
    UserParams p ∧ UserParams q ∧ Renumbered p q (fun m => 3 - m) := by
  intro p0 p q
  have h0 : UserParams p0 := .new _ _ _ _ (by decide)
  have hk : ∀ (v : Parameter ℝ) m, m = 1 ∨ m = 2 → Key.orb .k m ∈ p0.items.keys ∧ Key.orb .k m ∈ (p0.setItem (.orb .k 1) v).items.keys := by
    intro v m hm
    rcases hm with rfl | rfl <;> exact ⟨by show _ ∈ [_, _, _, _, _, _, _, _, _, _]; simp, by show _ ∈ [_, _, _, _, _, _, _, _, _, _]; simp⟩
  have hp : UserParams p := .set _ _ _ (.set _ _ _ h0 (.inl (hk a 1 (.inl rfl)).1) ha) (.inl (hk a 2 (.inr rfl)).2) hb
  have hq : UserParams q := .set _ _ _ (.set _ _ _ h0 (.inl (hk b 1 (.inl rfl)).1) hb) (.inl (hk b 2 (.inr rfl)).2) ha
  refine ⟨hp, hq, rfl, ?_, ?_, ?_, rfl, rfl⟩
  · intro m hm
    have h1 := hm.1
    have h2 : m ≤ 2 := hm.2
    refine ⟨by omega, ?_⟩
    show 3 - m ≤ 2
    omega
  · intro m m' hm hm' h
    have h2 : m ≤ 2 := hm.2
    have h2' : m' ≤ 2 := hm'.2
    have h' : 3 - m = 3 - m' := h
    omega
  · intro orb orb' ho ho' m hm
    have h1 := hm.1
    have h2 : m ≤ 2 := hm.2
    rw [ho.eq hp.good.complete m hm, ho'.eq hq.good.complete (3 - m) ⟨by omega, by show 3 - m ≤ 2; omega⟩]
    have : m = 1 ∨ m = 2 := by omega
    rcases this with rfl | rfl <;> rfl

end Radvel
