import Verif.Lemmas.RVModel

/-!
# C10-C14: conversions between bases
-/

namespace Radvel
open Real

theorem synthOfVals_congr (b : BasisName) (v v' : Vals) (h : ∀ x ∈ b.words, v x = v' x) :
    synthOfVals b v = synthOfVals b v' := by
  cases b <;> simp only [BasisName.words, List.mem_cons, List.not_mem_nil, or_false, forall_eq_or_imp, forall_eq] at h <;>
    simp only [synthOfVals, h]

theorem synthPlanet_of_values {p : Params ℝ} {m : Nat} {s : Synth}
    (h : ∀ x ∈ BasisName.words .perTpEWK, valueOf p x m = some (valOf s x)) : SynthPlanet p m s :=
  ⟨h .per (by decide), h .tp (by decide), h .e (by decide), h .w (by decide), h .k (by decide)⟩

theorem SynthPlanet.eq_vals {p : Params ℝ} {m : Nat} {s : Synth} (h : SynthPlanet p m s) :
    synthOfVals .perTpEWK (valsOf p m) = s := by
  simp [synthOfVals, valsOf, h.per, h.tp, h.e, h.w, h.k]

theorem toSynth_values (dflt : ℝ) (noVary : Bool) (p : Params ℝ) (h : Complete p) :
    ∃ q, toSynth dflt p.basis noVary p = .ok q ∧ q.basis = .perTpEWK ∧ q.numPlanets = p.numPlanets ∧ Complete q ∧
      q.planetParameters = BasisName.words .perTpEWK ∧
      (∀ m, IsPlanet p m → SynthPlanet q m (synthOfVals p.basis (valsOf p m))) := by
  obtain ⟨q, e1, e2, e3, e4, e5, _, e7, _⟩ := toSynth_spec dflt noVary p _ h.hasVals
  refine ⟨q, e1, e3, e5, ⟨e2, ?_⟩, e4, ?_⟩
  · intro x hx m hm
    rw [e3] at hx
    unfold IsPlanet at hm
    rw [e5] at hm
    rw [← Dict.get?_isSome_iff, e7 x m hm.1 hm.2, if_pos hx]
    rfl
  · intro m hm
    apply synthPlanet_of_values
    intro x hx
    unfold valueOf
    rw [e7 x m hm.1 hm.2, if_pos hx]
    simp only [Option.map_some, newPar]
    split <;> rfl

theorem fromSynth_values (dflt : ℝ) (nb : BasisName) (keep : Bool) (p : Params ℝ) (h : Complete p)
    (hb : p.basis = .perTpEWK) (hpp : p.planetParameters = BasisName.words .perTpEWK) :
    ∃ q, fromSynth dflt nb keep p = .ok q ∧ q.basis = nb ∧ q.numPlanets = p.numPlanets ∧ Complete q ∧
      (∀ m, IsPlanet p m → ∀ x ∈ nb.words, valueOf q x m = some (valOf (synthOfVals .perTpEWK (valsOf p m)) x)) := by
  obtain ⟨q, e1, e2, e3, _, e5, _, e7, _⟩ := fromSynth_spec dflt nb keep p _ h.hasVals hb hpp
  have hw : ∀ x ∈ nb.words, x ∉ delsOf nb ∧ (x ∈ newNames nb ∨ x ∈ BasisName.words .perTpEWK) := by
    cases nb <;> decide
  have hval : ∀ m, IsPlanet p m → ∀ x ∈ nb.words, valueOf q x m = some (valOf (synthOfVals .perTpEWK (valsOf p m)) x) := by
    intro m hm x hx
    obtain ⟨h1, h2⟩ := hw x hx
    unfold valueOf
    rw [e7 x m hm.1 hm.2, if_neg (fun hc => h1 hc.2)]
    by_cases hn : x ∈ newNames nb
    · rw [if_pos hn]
      simp only [Option.map_some, newPar]
      split <;> rfl
    · rw [if_neg hn]
      have hs := h2.resolve_left hn
      obtain ⟨r, hr, hv⟩ := h.hasVals.vals x m (by rw [hb]; exact hs) hm.1 hm.2
      rw [hr]
      simp only [Option.map_some, hv]
      revert hs
      cases x <;> first | (intro _; rfl) | (intro hs; exact absurd hs (by decide))
  refine ⟨q, e1, e3, e5, ⟨e2, ?_⟩, hval⟩
  intro x hx m hm
  rw [e3] at hx
  unfold IsPlanet at hm
  rw [e5] at hm
  have := hval m hm x hx
  rw [← Dict.get?_isSome_iff]
  unfold valueOf at this
  cases hg : q.items.get? (.orb x m) with
  | none => simp [hg] at this
  | some r => rfl

/-- C10: for every target basis, every number of planets and every physical eccentric orbit, converting from the synth basis
and back (with or without keeping the old keys) returns the same elements, the argument of periastron as an angle. -/
theorem C10_lossless (dflt : ℝ) (nb : BasisName) (keep noVary : Bool) (p : Params ℝ) (h : Complete p)
    (hb : p.basis = .perTpEWK) (hpp : p.planetParameters = BasisName.words .perTpEWK) :
    ∃ q r, fromSynth dflt nb keep p = .ok q ∧ toSynth dflt q.basis noVary q = .ok r ∧
      ∀ m s, IsPlanet p m → SynthPlanet p m s → 0 < s.per → 0 < s.e → s.e < 1 → 0 < s.k →
        ∃ s', SynthPlanet r m s' ∧ SameOrbit s s' := by
  obtain ⟨q, a1, a2, a3, a4, a5⟩ := fromSynth_values dflt nb keep p h hb hpp
  obtain ⟨r, b1, _, _, _, _, b5⟩ := toSynth_values dflt noVary q a4
  refine ⟨q, r, a1, b1, ?_⟩
  intro m s hm hs h1 h2 _ h4
  refine ⟨_, b5 m (by unfold IsPlanet at *; rw [a3]; exact hm), ?_⟩
  have : synthOfVals q.basis (valsOf q m) = synthOfVals nb (valOf s) := by
    rw [a2]
    apply synthOfVals_congr
    intro x hx
    simp only [valsOf]
    rw [a5 m hm x hx, hs.eq_vals]; rfl
  rw [this]
  exact roundtrip nb s h1 h2 h4

/-- C10 for circular orbits (missing: `tp` and `w` themselves, see `C10_tp_violated`): the period, the zero eccentricity and the
amplitude come back exactly and the velocity curve is the same at all times. -/
theorem C10_circular_partial (dflt : ℝ) (nb : BasisName) (keep noVary : Bool) (p : Params ℝ) (h : Complete p)
    (hb : p.basis = .perTpEWK) (hpp : p.planetParameters = BasisName.words .perTpEWK) :
    ∃ q r, fromSynth dflt nb keep p = .ok q ∧ toSynth dflt q.basis noVary q = .ok r ∧
      ∀ m s, IsPlanet p m → SynthPlanet p m s → PhysOrbit s → s.e = 0 →
        ∃ s', SynthPlanet r m s' ∧ s'.per = s.per ∧ s'.e = 0 ∧ s'.k = s.k ∧
          ∀ solve formula t, driveOf solve formula t s' = driveOf solve formula t s := by
  obtain ⟨q, a1, a2, a3, a4, a5⟩ := fromSynth_values dflt nb keep p h hb hpp
  obtain ⟨r, b1, _, _, _, _, b5⟩ := toSynth_values dflt noVary q a4
  refine ⟨q, r, a1, b1, ?_⟩
  intro m s hm hs hph he
  refine ⟨_, b5 m (by unfold IsPlanet at *; rw [a3]; exact hm), ?_⟩
  have : synthOfVals q.basis (valsOf q m) = synthOfVals nb (valOf s) := by
    rw [a2]
    apply synthOfVals_congr
    intro x hx
    simp only [valsOf]
    rw [a5 m hm x hx, hs.eq_vals]; rfl
  rw [this]
  obtain ⟨c1, c2, c3, c4⟩ := roundtrip_circ nb s hph.per he hph.k (hph.pole he)
  refine ⟨c1, c2, c3, ?_⟩
  intro solve formula t
  simp only [driveOf, rvDrive, he, c2, if_true, c4 t]

/-- A one-planet parameter set in the synth basis. -/
def onePlanet (per tp e w k : ℝ) : Params ℝ :=
  { numPlanets := 1, basis := .perTpEWK, planetParameters := [.per, .tp, .e, .w, .k], letters := none,
    items := [(.orb .per 1, { value := per }), (.orb .tp 1, { value := tp }), (.orb .e 1, { value := e }),
      (.orb .w 1, { value := w }), (.orb .k 1, { value := k })] }

theorem onePlanet_complete (per tp e w k : ℝ) : Complete (onePlanet per tp e w k) := by
  refine ⟨by simp [onePlanet, Dict.keys], ?_⟩
  intro x hx m hm
  obtain rfl : m = 1 := by have := hm.1; have := hm.2; simp [onePlanet] at this; omega
  revert hx
  cases x <;> simp [onePlanet, BasisName.words, Dict.keys]

theorem onePlanet_synth (per tp e w k : ℝ) : SynthPlanet (onePlanet per tp e w k) 1 ⟨per, tp, e, w, k⟩ :=
  ⟨rfl, rfl, rfl, rfl, rfl⟩

theorem onePlanet_isPlanet (per tp e w k : ℝ) : IsPlanet (onePlanet per tp e w k) 1 := ⟨le_refl _, le_refl _⟩

/-- The hypotheses of C10 hold for an eccentric planet. -/
example : Complete (onePlanet 10 3 0.5 1 7) ∧ (onePlanet 10 3 0.5 1 7).basis = .perTpEWK ∧
    (onePlanet 10 3 0.5 1 7).planetParameters = BasisName.words .perTpEWK ∧
    IsPlanet (onePlanet 10 3 0.5 1 7) 1 ∧ SynthPlanet (onePlanet 10 3 0.5 1 7) 1 ⟨10, 3, 0.5, 1, 7⟩ ∧
    (0 : ℝ) < 10 ∧ (0 : ℝ) < 0.5 ∧ (0.5 : ℝ) < 1 ∧ (0 : ℝ) < 7 :=
  ⟨onePlanet_complete _ _ _ _ _, rfl, rfl, onePlanet_isPlanet _ _ _ _ _, onePlanet_synth _ _ _ _ _, by norm_num, by norm_num,
    by norm_num, by norm_num⟩

/-- A circular orbit that meets `PhysOrbit`. -/
example : PhysOrbit ⟨10, 3, 0, 0, 7⟩ := by
  refine ⟨by norm_num, le_refl _, by norm_num, by norm_num, fun _ => ?_⟩
  have h : (π / 2 - 0) / 2 = π / 4 := by ring
  show cos ((π / 2 - 0) / 2) ≠ 0
  rw [h, Real.cos_pi_div_four]
  positivity

/-- C10 is false for circular orbits as stated: going through `per tc secosw sesinw k` moves the time of periastron (by a quarter
period for `w = π/2`), because `w` is lost when `e = 0`. -/
theorem C10_tp_violated (dflt : ℝ) :
    ∃ p q r, Complete p ∧ p.basis = .perTpEWK ∧ fromSynth dflt .perTcSecoswSesinwK false p = .ok q ∧
      toSynth dflt q.basis true q = .ok r ∧ SynthPlanet p 1 ⟨4, 0, 0, π / 2, 1⟩ ∧ valueOf r .tp 1 = some (-1) := by
  have hc := onePlanet_complete 4 0 0 (π / 2) 1
  have hsy := onePlanet_synth 4 0 0 (π / 2) 1
  have hpl := onePlanet_isPlanet 4 0 0 (π / 2) 1
  generalize hP : onePlanet 4 0 0 (π / 2) 1 = P at hc hsy hpl
  have hPb : P.basis = .perTpEWK := by rw [← hP]; rfl
  have hPp : P.planetParameters = BasisName.words .perTpEWK := by rw [← hP]; rfl
  obtain ⟨q, a1, a2, a3, a4, a5⟩ := fromSynth_values dflt .perTcSecoswSesinwK false P hc hPb hPp
  obtain ⟨r, b1, _, _, _, _, b5⟩ := toSynth_values dflt true q a4
  refine ⟨P, q, r, hc, hPb, a1, b1, hsy, ?_⟩
  rw [(b5 1 (by unfold IsPlanet at *; rw [a3]; exact hpl)).tp]
  have : synthOfVals q.basis (valsOf q 1) = synthOfVals .perTcSecoswSesinwK (valOf ⟨4, 0, 0, π / 2, 1⟩) := by
    rw [a2]
    apply synthOfVals_congr
    intro x hx
    simp only [valsOf]
    rw [a5 1 hpl x hx, hsy.eq_vals]; rfl
  rw [this]
  have h0 : (0 : ℝ) ^ 2 = 0 := by norm_num
  have h1 : ¬ (0 : ℝ) ≥ 1 := by norm_num
  have h3 : eccAnomalyAt (π / 2) 0 = π / 2 := by simpa using ecc_zero_half
  have h4 : eccAnomalyAt 0 0 = 0 := by simp [eccAnomalyAt]
  simp only [synthOfVals, valOf, Real.sqrt_zero, zero_mul, h0, add_zero, arctan2_zero, timetransToTimeperi, timeperiToTimetrans, h1,
    if_false, sub_zero, Bool.false_eq_true, sub_self, h3, h4, mul_zero]
  congr 1
  field_simp
  norm_num

/-- C11: for every basis, any number of planets and any values (`se ≥ 0` where `se` is fitted; `e > -1` where `e` is fitted with a
transit time, since otherwise the code's square root is not a number; the print basis carries a redundant `tc`, which is recomputed),
converting to synth and back to the same basis returns exactly the original values. -/
theorem C11_fitting_roundtrip (dflt : ℝ) (keep noVary : Bool) (p : Params ℝ) (h : Complete p) :
    ∃ q r, toSynth dflt p.basis noVary p = .ok q ∧ fromSynth dflt p.basis keep q = .ok r ∧
      ∀ m x, IsPlanet p m → x ∈ p.basis.words → (p.basis = .perTcTpEWK → x ≠ .tc) →
        (p.basis = .perTcSeWK → ∀ se, valueOf p .se m = some se → 0 ≤ se) →
        (p.basis = .perTcEWK → ∀ e, valueOf p .e m = some e → -1 < e) →
        valueOf r x m = valueOf p x m := by
  obtain ⟨q, a1, a2, a3, a4, a5, a6⟩ := toSynth_values dflt noVary p h
  obtain ⟨r, b1, _, _, _, b5⟩ := fromSynth_values dflt p.basis keep q a4 a2 a5
  refine ⟨q, r, a1, b1, ?_⟩
  intro m x hm hx hp hse _
  have hval : ∀ y ∈ p.basis.words, valueOf p y m = some (valsOf p m y) := by
    intro y hy
    obtain ⟨z, hz, hv⟩ := h.hasVals.vals y m hy hm.1 hm.2
    simp [valueOf, hz, hv]
  rw [b5 m (by unfold IsPlanet at *; rw [a3]; exact hm) x hx, (a6 m hm).eq_vals, hval x hx]
  congr 1
  apply roundtrip_basis p.basis _ x hx hp
  intro hb
  exact hse hb _ (hval .se (by rw [hb]; decide))

/-- A parameter set in `per tc ecosw esinw k` with an unphysical eccentricity meets the hypotheses of C11. -/
example : ∃ p : Params ℝ, Complete p ∧ p.basis = .perTcEcoswEsinwK ∧ IsPlanet p 2 ∧ p.basis ≠ .perTcSeWK ∧
    valueOf p .ecosw 2 = some 3 := by
  refine ⟨((Params.init 0 2 .perTcEcoswEsinwK none).setItem (.orb .ecosw 2) { value := 3 }), ?_, rfl, ⟨by decide, by decide⟩, by decide, ?_⟩
  · have : UserParams ((Params.init (0 : ℝ) 2 .perTcEcoswEsinwK none).setItem (.orb .ecosw 2) { value := 3 }) :=
      .set _ _ _ (.new 0 2 .perTcEcoswEsinwK none (by decide)) (.inl (by rw [Params.init_keys]; decide)) (by decide)
    exact this.good.complete
  · simp [valueOf, Params.setItem]

/-- C12: the vector conversion to synth and the dictionary conversion to synth give the same values, planet by planet and name by
name, and the vector conversion leaves the other rows alone. -/
theorem C12_to_synth (dflt : ℝ) (noVary : Bool) (p : Params ℝ) (h : UserParams p) :
    ∃ s q rows, VState.init p = .ok s ∧ toSynth dflt p.basis noVary p = .ok q ∧
      vToSynth p.basis p.numPlanets s.rows = .ok rows ∧ rows.length = s.rows.length ∧
      (∀ m, IsPlanet p m → ∀ x ∈ BasisName.words .perTpEWK, ∃ r : Row ℝ, rows[5 * (m - 1) + x.offset]? = some r ∧
        valueOf q x m = some r.value) ∧
      (∀ a : Nat, 5 * p.numPlanets ≤ a → rows[a]? = s.rows[a]?) := by
  obtain ⟨s, e1, e2, e3, _⟩ := h.good.model
  obtain ⟨q, a1, a2, a3, a4, a5, a6⟩ := toSynth_values dflt noVary p h.good.complete
  obtain ⟨rows, b1, b2, b3, b4⟩ := vToSynth_spec e2
  rw [e3] at b1 b3 b4
  refine ⟨s, q, rows, e1, a1, b1, b2, ?_, b4⟩
  intro m hm x hx
  have hoff := offset_lt x
  have hm1 := hm.1
  have hm2 := hm.2
  have := b3 (m - 1) x.offset (by omega) hoff
  rw [blockOf_at _ (by decide) _ x hx, show m - 1 + 1 = m by omega, Option.map_eq_some_iff] at this
  obtain ⟨r, hr1, hr2⟩ := this
  refine ⟨r, hr1, ?_⟩
  rw [hr2]
  have hs := a6 m hm
  revert hx
  cases x <;> first
    | (intro _; exact hs.per) | (intro _; exact hs.tp) | (intro _; exact hs.e) | (intro _; exact hs.w) | (intro _; exact hs.k)
    | (intro hx; exact absurd hx (by decide))

/-- C12: the same for the conversions from synth to any five-parameter basis. -/
theorem C12_from_synth (dflt : ℝ) (nb : BasisName) (keep : Bool) (p : Params ℝ) (h : UserParams p)
    (hb : p.basis = .perTpEWK) (hpp : p.planetParameters = BasisName.words .perTpEWK) (hnb : nb ≠ .perTcTpEWK) :
    ∃ s q rows, VState.init p = .ok s ∧ fromSynth dflt nb keep p = .ok q ∧
      vFromSynth nb p.numPlanets s.rows = .ok rows ∧ rows.length = s.rows.length ∧
      (∀ m, IsPlanet p m → ∀ x ∈ nb.words, ∃ r : Row ℝ, rows[5 * (m - 1) + x.offset]? = some r ∧
        valueOf q x m = some r.value) ∧
      (∀ a : Nat, 5 * p.numPlanets ≤ a → rows[a]? = s.rows[a]?) := by
  obtain ⟨s, e1, e2, e3, _⟩ := h.good.model
  obtain ⟨q, a1, a2, a3, a4, a5⟩ := fromSynth_values dflt nb keep p h.good.complete hb hpp
  obtain ⟨rows, b1, b2, b3, b4⟩ := vFromSynth_spec e2 (by rw [e3]; exact hb) nb hnb
  rw [e3] at b1 b3 b4
  refine ⟨s, q, rows, e1, a1, b1, b2, ?_, b4⟩
  intro m hm x hx
  have hm1 := hm.1
  have hm2 := hm.2
  have := b3 (m - 1) x.offset (by omega) (offset_lt x)
  rw [blockOf_at _ hnb _ x hx, show m - 1 + 1 = m by omega, Option.map_eq_some_iff] at this
  obtain ⟨r, hr1, hr2⟩ := this
  exact ⟨r, hr1, by rw [hr2]; exact a5 m hm x hx⟩

/-- The hypotheses of C12 hold for a two-planet model. -/
example : UserParams (Params.init (0 : ℝ) 2 .perTpEWK none) ∧ (Params.init (0 : ℝ) 2 .perTpEWK none).basis = .perTpEWK ∧
    (Params.init (0 : ℝ) 2 .perTpEWK none).planetParameters = BasisName.words .perTpEWK :=
  ⟨.new 0 2 _ none (by decide), rfl, rfl⟩

/-! ### C13 -/

theorem toAnyBasis_spec (dflt : ℝ) (t : BasisName) (p : Params ℝ) (h : Complete p) :
    ∃ q1 q, toSynth dflt p.basis true p = .ok q1 ∧ toAnyBasis dflt t p = .ok q ∧ q.items.keys.Nodup ∧ q.basis = t ∧
      q.numPlanets = p.numPlanets ∧
      (∀ x m, IsPlanet p m → q1.items.get? (.orb x m) = if x ∈ BasisName.words .perTpEWK then
          some (newPar p.items .blank (.orb x m) (valOf (synthOfVals p.basis (valsOf p m)) x)) else p.items.get? (.orb x m)) ∧
      (∀ x m, IsPlanet p m → q.items.get? (.orb x m) =
        if x ∈ delsOf t then none
        else if x ∈ newNames t then some (newPar q1.items .yes (.orb x m) (valOf (synthOfVals p.basis (valsOf p m)) x))
        else q1.items.get? (.orb x m)) ∧
      (∀ key, (∀ x m, IsPlanet p m → key ≠ .orb x m) → q.items.get? key = p.items.get? key) ∧
      (∀ m, IsPlanet p m → ∀ x ∈ t.words, valueOf q x m = some (valOf (synthOfVals p.basis (valsOf p m)) x)) := by
  obtain ⟨q1, a1, a2, a3, a4, a5, _, a7, a8⟩ := toSynth_spec dflt true p _ h.hasVals
  obtain ⟨q1', c1, c2, c3, c4, c5, c6⟩ := toSynth_values dflt true p h
  have hq : q1' = q1 := by rw [a1] at c1; injection c1 with c1; exact c1.symm
  subst hq
  obtain ⟨q, b1, b2, b3, b4, b5, _, b7, b8⟩ := fromSynth_spec dflt t false q1' _ c4.hasVals a3 a4
  obtain ⟨q', d1, _, _, _, d5⟩ := fromSynth_values dflt t false q1' c4 a3 a4
  have hq : q' = q := by rw [b1] at d1; injection d1 with d1; exact d1.symm
  subst hq
  have hpl : ∀ m, IsPlanet p m → IsPlanet q1' m := by intro m hm; unfold IsPlanet at *; rw [a5]; exact hm
  refine ⟨q1', q', a1, ?_, b2, b3, b5.trans a5, ?_, ?_, ?_, ?_⟩
  · unfold toAnyBasis
    rw [a1]; exact b1
  · intro x m hm; exact a7 x m hm.1 hm.2
  · intro x m hm
    rw [b7 x m (hpl m hm).1 (hpl m hm).2, (c6 m hm).eq_vals]
    simp
  · intro key hk
    rw [b8 key (fun x m h1 h2 => hk x m ⟨h1, by rw [← a5]; exact h2⟩), a8 key (fun x m h1 h2 => hk x m ⟨h1, h2⟩)]
  · intro m hm x hx
    rw [d5 m (hpl m hm) x hx, (c6 m hm).eq_vals]

theorem kept_words (t : BasisName) (h1 : t ≠ .perTcTpEWK) (h2 : t ≠ .logperTpEWLogk) (x : PName) (hd : x ∉ delsOf t)
    (hx : x ∈ newNames t ∨ x ∈ BasisName.words .perTpEWK) : x ∈ t.words := by
  cases t <;> first
    | exact absurd rfl h1
    | exact absurd rfl h2
    | (revert hd hx; cases x <;> decide)

theorem toAnyBasis_good (dflt : ℝ) (t : BasisName) (p : Params ℝ) (h : GoodParams p) (hc : CleanPair p.basis t) :
    ∃ q, toAnyBasis dflt t p = .ok q ∧ GoodParams q ∧ q.basis = t ∧ q.numPlanets = p.numPlanets ∧
      (∀ m, IsPlanet p m → ∀ x ∈ t.words, valueOf q x m = some (valOf (synthOfVals p.basis (valsOf p m)) x)) ∧
      (∀ key, (∀ x m, key ≠ .orb x m) → q.items.get? key = p.items.get? key) := by
  obtain ⟨q1, q, _, e1, e2, e3, e4, e5, e6, e7, e8⟩ := toAnyBasis_spec dflt t p h.complete
  obtain ⟨hc1, hc2, hc3, hc4⟩ := hc
  have hkeys : ∀ x, (x ∉ delsOf t ∧ (x ∈ newNames t ∨ x ∈ BasisName.words .perTpEWK ∨ x ∈ p.basis.words)) ↔ x ∈ t.words := by
    intro x
    have h1 : x ∈ t.words → x ∉ delsOf t ∧ (x ∈ newNames t ∨ x ∈ BasisName.words .perTpEWK) := by
      revert x; cases t <;> decide
    have h2 := kept_words t hc1 hc2 x
    constructor
    · rintro ⟨a, b⟩
      rcases b with b | b | b
      · exact h2 a (.inl b)
      · exact h2 a (.inr b)
      · by_cases hs : x ∈ BasisName.words .perTpEWK
        · exact h2 a (.inr hs)
        · exact hc4 x b hs
    · intro hx
      obtain ⟨a, b⟩ := h1 hx
      exact ⟨a, b.elim .inl (fun b => .inr (.inl b))⟩
  have hq1 : ∀ x m, IsPlanet p m → ((q1.items.get? (.orb x m)).isSome ↔ x ∈ BasisName.words .perTpEWK ∨ x ∈ p.basis.words) := by
    intro x m hm
    rw [e5 x m hm]
    by_cases hx : x ∈ BasisName.words .perTpEWK
    · simp [hx]
    · rw [if_neg hx, Dict.get?_isSome_iff, h.orb]
      constructor
      · intro h; exact .inr h.1
      · intro h; exact ⟨h.resolve_left hx, hm⟩
  have hq : ∀ x m, IsPlanet p m → ((q.items.get? (.orb x m)).isSome ↔ x ∈ t.words) := by
    intro x m hm
    rw [e6 x m hm, ← hkeys x]
    by_cases h1 : x ∈ delsOf t
    · simp [h1]
    · rw [if_neg h1]
      by_cases h2 : x ∈ newNames t
      · simp [h1, h2]
      · rw [if_neg h2, hq1 x m hm]; simp [h1, h2]
  -- no blank flags
  have hb1 : ∀ x m r, IsPlanet p m → x ∈ t.words → q1.items.get? (.orb x m) = some r → r.vary ≠ .blank := by
    intro x m r hm hx hr
    rw [e5 x m hm] at hr
    by_cases hs : x ∈ BasisName.words .perTpEWK
    · rw [if_pos hs] at hr
      obtain ⟨r', hr'⟩ := Dict.exists_get?_of_mem _ ((h.orb x m).2 ⟨hc3 x hx hs, hm⟩)
      injection hr with hr
      rw [← hr]
      simp only [newPar, hr']
      exact h.noblank _ _ hr'
    · rw [if_neg hs] at hr
      exact h.noblank _ _ hr
  refine ⟨q, e1, ⟨e2, by rw [e3]; exact hc1, ?_, ?_, ?_⟩, e3, e4, e8, ?_⟩
  · intro x m
    rw [e3, e4, ← Dict.get?_isSome_iff]
    by_cases hm : IsPlanet p m
    · rw [hq x m hm]
      exact ⟨fun hx => ⟨hx, hm⟩, fun hx => hx.1⟩
    · rw [e7 (.orb x m) (by intro y m' hm' hy; injection hy with _ hy; subst hy; exact hm hm')]
      rw [Dict.get?_isSome_iff, h.orb]
      exact ⟨fun hx => absurd hx.2 hm, fun hx => absurd hx.2 hm⟩
  · intro s hs
    rw [← Dict.get?_isSome_iff, e7 (.other s) (by intro y m' _ hy; cases hy), Dict.get?_isSome_iff] at hs
    exact h.noother s hs
  · intro k r hr
    by_cases hk : ∃ x m, IsPlanet p m ∧ k = .orb x m
    · obtain ⟨x, m, hm, rfl⟩ := hk
      have hx : x ∈ t.words := (hq x m hm).1 (by rw [hr]; rfl)
      rw [e6 x m hm] at hr
      by_cases h1 : x ∈ delsOf t
      · simp [h1] at hr
      · rw [if_neg h1] at hr
        by_cases h2 : x ∈ newNames t
        · rw [if_pos h2] at hr
          injection hr with hr
          rw [← hr]
          unfold newPar
          cases hg : q1.items.get? (.orb x m) with
          | none => simp
          | some r' => exact hb1 x m r' hm hx hg
        · rw [if_neg h2] at hr
          exact hb1 x m r hm hx hr
    · rw [e7 k (fun x m hm hkx => hk ⟨x, m, hm, hkx⟩)] at hr
      exact h.noblank k r hr
  · intro key hk
    exact e7 key (fun x m _ => hk x m)

/-- C13 for the pairs of bases that convert cleanly (missing: the other pairs, where the statement is false, see the `C13_..._violated`
theorems): for every number of planets, all physical values, both implementations and all times, the model
built from the converted parameters predicts the same velocity. -/
theorem C13_same_curve_partial (dflt tb : ℝ) (t : BasisName) (p : Params ℝ) (h : UserParams p) (hc : CleanPair p.basis t)
    (hphys : ∀ m, IsPlanet p m → ∀ q s, toSynth dflt p.basis true p = .ok q → SynthPlanet q m s → PhysOrbit s)
    (solve : ℝ → ℝ → Option ℝ) (formula : ℝ → ℝ → ℝ → ℝ → ℝ) (hf : CodeFormula formula) :
    ∃ q, toAnyBasis dflt t p = .ok q ∧ q.basis = t ∧ (∃ v, VState.init q = .ok v) ∧
      ∀ τ, curve (driveOf solve formula) tb q τ = curve (driveOf solve formula) tb p τ := by
  obtain ⟨q, e1, e2, e3, e4, e5, e6⟩ := toAnyBasis_good dflt t p h.good hc
  obtain ⟨v, f1, f2, f3, _⟩ := e2.model
  obtain ⟨v', g1, g2, g3, _⟩ := h.good.model
  refine ⟨q, e1, e3, ⟨v, f1⟩, ?_⟩
  intro τ
  unfold curve
  rw [f1, g1]
  simp only
  rw [modelCall_fresh f2 _ _ _ none (by simp), modelCall_fresh g2 _ _ _ none (by simp), f3, g3, e4]
  have ht : ∀ key, (∀ x m, key ≠ .orb x m) → trendOf q key = trendOf p key := by
    intro key hk; unfold trendOf; rw [e6 key hk]
  rw [ht .dvdt (by simp), ht .curv (by simp)]
  congr 3
  apply List.foldl_ext
  intro acc i hi
  have hm : IsPlanet p (i + 1) := ⟨by omega, by simp [planetList] at hi; omega⟩
  have hsy : synthOfVals q.basis (valsOf q (i + 1)) = synthOfVals t (valOf (synthOfVals p.basis (valsOf p (i + 1)))) := by
    rw [e3]
    apply synthOfVals_congr
    intro x hx
    simp only [valsOf]
    rw [e5 (i + 1) hm x hx]; rfl
  obtain ⟨q0, a1, _, _, _, _, a6⟩ := toSynth_values dflt true p h.good.complete
  rw [hsy, drive_roundtrip hf solve τ t _ (hphys _ hm q0 _ a1 (a6 _ hm))]

/-- Every conversion from the synth basis except to `logper tp e w logk` and to the print basis is clean, and so is changing only between
`per` / `logper`-free variants that share their names; e.g. these pairs. -/
example : CleanPair .perTpEWK .perTcSecoswSesinwLogk ∧ CleanPair .perTpEWK .logperTcSecoswSesinwK ∧
    CleanPair .perTpEWK .perTcEcoswEsinwK ∧ CleanPair .perTcSecoswSesinwK .perTcSecoswSesinwLogk ∧
    CleanPair .perTcEWK .perTcSeWK ∧ CleanPair .perTcEWK .logperTcSecoswSesinwLogk := by decide

/-- The hypotheses of C13 hold for an eccentric planet in the synth basis. -/
example : UserParams (Params.init (0.5 : ℝ) 1 .perTpEWK none) ∧
    (∀ m, IsPlanet (Params.init (0.5 : ℝ) 1 .perTpEWK none) m → ∀ q s,
      toSynth 0 .perTpEWK true (Params.init (0.5 : ℝ) 1 .perTpEWK none) = .ok q → SynthPlanet q m s → PhysOrbit s) := by
  have hu : UserParams (Params.init (0.5 : ℝ) 1 .perTpEWK none) := .new _ _ _ _ (by decide)
  refine ⟨hu, ?_⟩
  intro m hm q s hq hs
  obtain ⟨q', a1, _, _, _, _, a6⟩ := toSynth_values 0 true _ hu.good.complete
  have hb : (Params.init (0.5 : ℝ) 1 .perTpEWK none).basis = .perTpEWK := rfl
  rw [hb] at a1 a6
  rw [hq] at a1
  injection a1 with a1
  subst a1
  obtain rfl : m = 1 := by have := hm.1; have := hm.2; simp [Params.init] at this; omega
  have h6 := a6 1 hm
  have hvals : synthOfVals .perTpEWK (valsOf (Params.init (0.5 : ℝ) 1 .perTpEWK none) 1) = ⟨0.5, 0.5, 0.5, 0.5, 0.5⟩ := rfl
  rw [hvals] at h6
  have h1 : s.per = 0.5 := by have := hs.per; rw [h6.per] at this; injection this with this; exact this.symm
  have h2 : s.e = 0.5 := by have := hs.e; rw [h6.e] at this; injection this with this; exact this.symm
  have h3 : s.k = 0.5 := by have := hs.k; rw [h6.k] at this; injection this with this; exact this.symm
  refine ⟨by rw [h1]; norm_num, by rw [h2]; norm_num, by rw [h2]; norm_num, by rw [h3]; norm_num, ?_⟩
  intro h; rw [h2] at h; norm_num at h

theorem words_not_del (t : BasisName) (x : PName) (hx : x ∈ t.words) : x ∉ delsOf t := by
  revert x; cases t <;> decide

theorem fillRows_noblank (idx : Dict Key Nat) (items : Dict Key (Parameter ℝ)) (rows rows' : List (Row ℝ))
    (h : fillRows idx items rows = .ok rows') : ∀ x ∈ items, (∃ i, idx.get? x.1 = some i) → x.2.vary ≠ .blank := by
  induction items generalizing rows with
  | nil => simp
  | cons a t ih =>
    obtain ⟨k, q⟩ := a
    intro x hx
    simp only [fillRows] at h
    cases hk : idx.get? k with
    | none =>
      rw [hk] at h
      rcases List.mem_cons.1 hx with rfl | hx
      · rintro ⟨i, hi⟩; simp [hk] at hi
      · exact ih rows h x hx
    | some i =>
      rw [hk] at h
      simp only at h
      split at h
      · cases hr : rowOf q with
        | error e => rw [hr] at h; simp at h
        | ok r =>
          rw [hr] at h
          rcases List.mem_cons.1 hx with rfl | hx
          · intro _ hb
            have hb' : q.vary = .blank := hb
            simp [rowOf, hb'] at hr
          · exact ih _ h x hx
      · simp at h

/-- C13 is false whenever the target basis uses a synth word (per, tp, e, w or k) that the source basis lacks: `to_synth` gives that
parameter the flag `''`, which `Vector` cannot store, so no model can be built from the result. This holds for every
number of planets and all values. -/
theorem C13_blank_violated (dflt : ℝ) (t : BasisName) (p : Params ℝ) (h : UserParams p) (hN : 1 ≤ p.numPlanets)
    (x : PName) (hx : x ∈ t.words) (hs : x ∈ BasisName.words .perTpEWK) (hnx : x ∉ p.basis.words) :
    ∃ q, toAnyBasis dflt t p = .ok q ∧ ∀ v, VState.init q ≠ .ok v := by
  obtain ⟨q1, q, _, e1, e2, e3, e4, e5, e6, e7, e8⟩ := toAnyBasis_spec dflt t p h.good.complete
  refine ⟨q, e1, ?_⟩
  intro v hv
  have hm : IsPlanet p 1 := ⟨le_refl _, hN⟩
  have hdel : x ∉ delsOf t := words_not_del t x hx
  have hp : p.items.get? (.orb x 1) = none := by
    rw [Dict.get?_eq_none_iff, h.good.orb]; exact fun hc => hnx hc.1
  have hq1 : ∃ r, q1.items.get? (.orb x 1) = some r ∧ r.vary = .blank := by
    rw [e5 x 1 hm, if_pos hs]
    exact ⟨_, rfl, by simp [newPar, hp]⟩
  have hq : ∃ r, q.items.get? (.orb x 1) = some r ∧ r.vary = .blank := by
    obtain ⟨r, hr, hb⟩ := hq1
    rw [e6 x 1 hm, if_neg hdel]
    split
    · exact ⟨_, rfl, by simp [newPar, hr, hb]⟩
    · exact ⟨r, hr, hb⟩
  obtain ⟨r, hr, hb⟩ := hq
  unfold VState.init VState.dictToVector at hv
  simp only at hv
  cases hf : fillRows (initIndexDict q) q.items (List.replicate (vectorSize q.items) Row.zero) with
  | error e => rw [hf] at hv; simp at hv
  | ok rows =>
    refine fillRows_noblank _ _ _ _ hf (.orb x 1, r) (Dict.mem_of_get? _ hr) ?_ hb
    refine ⟨5 * (1 - 1) + x.offset, ?_⟩
    rw [initIndexDict_get q e2]
    simp only
    rw [if_pos ⟨le_refl _, by rw [e4]; exact hN⟩]

/-- For instance the default basis of `Parameters` cannot be converted to the synth basis and then used. -/
example : PName.tp ∈ BasisName.words .perTpEWK ∧ PName.tp ∉ BasisName.words .perTcSecoswSesinwLogk := by decide

/-- C14: what a conversion does to its input, exactly. `to_synth` never changes it; `from_synth` / `to_any_basis` change only the
basis name, and they do so exactly if there is at least one planet and the target is one of five bases other than the current one
(missing: unchanged in all cases, see `C14_second_call_violated`). -/
theorem C14_input_partial (nb : BasisName) (p : Params ℝ) :
    ((inputAfter nb p).items = p.items ∧ (inputAfter nb p).numPlanets = p.numPlanets ∧
      (inputAfter nb p).planetParameters = p.planetParameters ∧ (inputAfter nb p).letters = p.letters) ∧
    ((inputAfter nb p).basis = p.basis ↔ p.numPlanets = 0 ∨ nb = p.basis ∨
      nb ∈ [BasisName.perTpEWK, .perTcEWK, .perTcTpEWK, .perTcSeWK, .perTcSecoswSesinwLogk]) := by
  refine ⟨⟨rfl, rfl, rfl, rfl⟩, ?_⟩
  unfold inputAfter selfNameAfter
  simp only
  split
  · rename_i hc
    obtain ⟨h1, h2⟩ := hc
    have : nb ∉ [BasisName.perTpEWK, .perTcEWK, .perTcTpEWK, .perTcSeWK, .perTcSecoswSesinwLogk] := by
      revert h2; cases nb <;> decide
    constructor
    · intro h; exact .inr (.inl h)
    · rintro (h | h | h)
      · omega
      · exact h
      · exact absurd h this
  · rename_i hc
    simp only [true_iff]
    by_cases h0 : p.numPlanets = 0
    · exact .inl h0
    · right; right
      have h2 : renamesSelf nb = false := by
        cases hr : renamesSelf nb with
        | false => rfl
        | true => exact absurd ⟨by omega, hr⟩ hc
      revert h2; cases nb <;> decide

theorem foldlM_error_first (N : Nat) (hN : 1 ≤ N) (f : Dict Key (Parameter ℝ) → Nat → Except PyErr (Dict Key (Parameter ℝ)))
    (d : Dict Key (Parameter ℝ)) (e : PyErr) (h : f d 0 = .error e) : (List.range N).foldlM f d = .error e := by
  obtain ⟨n, rfl⟩ : ∃ n, N = n + 1 := ⟨N - 1, by omega⟩
  rw [List.range_succ_eq_map, List.foldlM_cons, h]; rfl

/-- C14 is false: after one conversion of a synth parameter set to any of five bases, the input claims to be in the new basis, and the
same call made again raises `KeyError`. This holds for every number of planets ≥ 1 and all values. -/
theorem C14_second_call_violated (dflt : ℝ) (nb : BasisName) (p : Params ℝ) (h : UserParams p) (hb : p.basis = .perTpEWK)
    (hN : 1 ≤ p.numPlanets)
    (hnb : nb ∈ [BasisName.perTcSecoswSesinwK, .logperTcSecoswSesinwK, .logperTcSecoswSesinwLogk, .perTcEcoswEsinwK, .logperTpEWLogk]) :
    (∃ q, toAnyBasis dflt nb p = .ok q) ∧ (inputAfter nb p).basis = nb ∧
      toAnyBasis dflt nb (inputAfter nb p) = .error .keyError := by
  have hre : renamesSelf nb = true := by revert hnb; cases nb <;> decide
  have hbas : (inputAfter nb p).basis = nb := by
    unfold inputAfter selfNameAfter
    simp only
    rw [if_pos ⟨hN, hre⟩]
  refine ⟨?_, hbas, ?_⟩
  · obtain ⟨_, q, _, e1, _⟩ := toAnyBasis_spec dflt nb p h.good.complete
    exact ⟨q, e1⟩
  · unfold toAnyBasis
    rw [hbas]
    have : toSynth dflt nb true (inputAfter nb p) = .error .keyError := by
      unfold toSynth
      simp only
      rw [foldlM_error_first (inputAfter nb p).numPlanets hN _ _ .keyError ?_]
      · rfl
      · have htc : getpar (inputAfter nb p).items (0 + 1) .tc = .error .keyError := by
          have : (inputAfter nb p).items.get? (.orb .tc 1) = none := by
            rw [Dict.get?_eq_none_iff]
            show Key.orb .tc 1 ∉ p.items.keys
            rw [h.good.orb, hb]; exact fun hc => absurd hc.1 (by decide)
          simp [getpar, this]
        have hlp : getpar (inputAfter nb p).items (0 + 1) .logper = .error .keyError := by
          have : (inputAfter nb p).items.get? (.orb .logper 1) = none := by
            rw [Dict.get?_eq_none_iff]
            show Key.orb .logper 1 ∉ p.items.keys
            rw [h.good.orb, hb]; exact fun hc => absurd hc.1 (by decide)
          simp [getpar, this]
        have hper : ∃ v, getpar (inputAfter nb p).items (0 + 1) .per = .ok v := by
          obtain ⟨v, hv⟩ := Dict.exists_get?_of_mem p.items ((h.good.orb .per 1).2 ⟨by rw [hb]; decide, le_refl _, hN⟩)
          refine ⟨v.value, ?_⟩
          have : (inputAfter nb p).items.get? (.orb .per 1) = some v := hv
          simp [getpar, this]
        obtain ⟨v, hv⟩ := hper
        revert hnb
        cases nb <;> intro hnb <;> first
          | exact absurd hnb (by decide)
          | (simp only [synthOf, hv, htc, hlp]; rfl)
    rw [this]; rfl

example : UserParams (Params.init (1 : ℝ) 3 .perTpEWK none) ∧ (Params.init (1 : ℝ) 3 .perTpEWK none).basis = .perTpEWK ∧
    1 ≤ (Params.init (1 : ℝ) 3 .perTpEWK none).numPlanets := ⟨.new _ _ _ _ (by decide), rfl, by decide⟩

end Radvel
