import Verif.Model.Phase
import Verif.Spec.Built
import Verif.Lemmas.RVModel
import Verif.Lemmas.BasisReal
import Verif.Props.RVModel

/-!
# Property theorems C52 and C92
-/

namespace Radvel
open Real

/-- The phase of `t` for the reference time `t0` and the period `per`, by its defining property. -/
def IsPhase (t0 per t φ : ℝ) : Prop := 0 ≤ φ ∧ φ < 1 ∧ ∃ n : ℤ, t = t0 + (n + φ) * per

/-- The output asked for: the phases, then, with `cat`, the phases again shifted by one. -/
def Folded (cat : Bool) (t0 per : ℝ) (ts : List ℝ) (out : List (Option ℝ)) : Prop :=
  ∃ φs : List ℝ, List.Forall₂ (IsPhase t0 per) ts φs ∧ out = (if cat then φs ++ φs.map (· + 1) else φs).map some

theorem phaseAt_spec (t0 per t : ℝ) (hp : 0 < per) : ∃ φ, phaseAt t0 per t = some φ ∧ IsPhase t0 per t φ := by
  refine ⟨_, by unfold phaseAt; rw [if_neg (ne_of_gt hp)], ?_, ?_, ⌊(t - t0) / per⌋, ?_⟩
  · apply div_nonneg _ hp.le
    have := Int.floor_le ((t - t0) / per)
    rw [le_div_iff₀ hp] at this
    linarith
  · rw [div_lt_one hp]
    have := Int.lt_floor_add_one ((t - t0) / per)
    rw [div_lt_iff₀ hp] at this
    linarith
  · field_simp
    ring

/-- The defining property determines the phase, and times a whole number of periods apart are the ones with equal phase. -/
theorem C52_unique (t0 per : ℝ) (hp : 0 < per) (t t' φ φ' : ℝ) (h : IsPhase t0 per t φ) (h' : IsPhase t0 per t' φ') :
    φ = φ' ↔ ∃ n : ℤ, t' = t + n * per := by
  obtain ⟨a, b, n, hn⟩ := h
  obtain ⟨a', b', n', hn'⟩ := h'
  constructor
  · rintro rfl
    exact ⟨n' - n, by rw [hn, hn']; push_cast; ring⟩
  · rintro ⟨m, hm⟩
    have h1 : (n' + φ' - (n + φ) - m) * per = 0 := by rw [hn, hn'] at hm; linarith
    have h2 : (n' : ℝ) + φ' - (n + φ) - m = 0 := by
      rcases mul_eq_zero.1 h1 with h | h
      · exact h
      · exact absurd h (ne_of_gt hp)
    have h3 : φ - φ' = ((n' - n - m : ℤ) : ℝ) := by push_cast; linarith
    have h4 : (-1 : ℝ) < ((n' - n - m : ℤ) : ℝ) := by rw [← h3]; linarith
    have h5 : ((n' - n - m : ℤ) : ℝ) < 1 := by rw [← h3]; linarith
    have h6 : -1 < n' - n - m := by exact_mod_cast h4
    have h7 : n' - n - m < 1 := by exact_mod_cast h5
    have h8 : n' - n - m = 0 := by omega
    rw [h8] at h3
    simp at h3
    linarith

theorem folded (cat : Bool) (t0 per : ℝ) (hp : 0 < per) (ts : List ℝ) : Folded cat t0 per ts (catPhase cat (ts.map (phaseAt t0 per))) := by
  have : ∃ φs : List ℝ, List.Forall₂ (IsPhase t0 per) ts φs ∧ ts.map (phaseAt t0 per) = φs.map some := by
    induction ts with
    | nil => exact ⟨[], .nil, rfl⟩
    | cons t ts ih =>
      obtain ⟨φs, h1, h2⟩ := ih
      obtain ⟨φ, h3, h4⟩ := phaseAt_spec t0 per t hp
      exact ⟨φ :: φs, .cons h4 h1, by simp [h2, h3]⟩
  obtain ⟨φs, h1, h2⟩ := this
  refine ⟨φs, h1, ?_⟩
  unfold catPhase
  rw [h2]
  cases cat <;> simp

/-- C52 for the bases with `per` (missing: the `logper` bases, `C52_logper_violated`): for every complete parameter set, planet and list of times, `t_to_phase` folds the times
with the planet's period on its `tc`, or on its `tp` when it has no `tc`. -/
theorem C52_phase_partial (p : Params ℝ) (hc : Complete p) (hb : PName.per ∈ p.basis.words) (n : Nat) (hn : IsPlanet p n) (hpos : ∀ per, valueOf p .per n = some per → 0 < per)
    (ts : List ℝ) (cat : Bool) :
    ∃ per t0 out, valueOf p .per n = some per ∧ tToPhase p ts n cat = .ok out ∧ Folded cat t0 per ts out ∧
      (valueOf p .tc n = some t0 ∨ valueOf p .tc n = none ∧ valueOf p .tp n = some t0) := by
  obtain ⟨q, hq⟩ := Dict.exists_get?_of_mem _ (hc.2 _ hb n hn)
  have hper : valueOf p .per n = some q.value := by unfold valueOf; rw [hq]; rfl
  have hget : p.items.get (.orb .per n) = .ok q := by unfold Dict.get; rw [hq]
  have hpos' := hpos _ hper
  have hword : PName.tc ∈ p.basis.words ∨ PName.tp ∈ p.basis.words := by
    revert hb; cases p.basis <;> decide
  unfold tToPhase
  rw [hget]
  cases htc : p.items.get? (.orb .tc n) with
  | some r =>
    have h1 : p.items.has (.orb .tc n) = true := by unfold Dict.has; rw [htc]; rfl
    have h2 : p.items.get (.orb .tc n) = .ok r := by unfold Dict.get; rw [htc]
    refine ⟨q.value, r.value, _, hper, ?_, folded cat r.value q.value hpos' ts, .inl (by unfold valueOf; rw [htc]; rfl)⟩
    simp only [h1, if_true, h2]
    rfl
  | none =>
    have h1 : p.items.has (.orb .tc n) = false := by unfold Dict.has; rw [htc]; rfl
    have h3 : PName.tp ∈ p.basis.words := by
      rcases hword with h | h
      · obtain ⟨r, hr⟩ := Dict.exists_get?_of_mem _ (hc.2 _ h n hn)
        rw [htc] at hr; cases hr
      · exact h
    obtain ⟨r, hr⟩ := Dict.exists_get?_of_mem _ (hc.2 _ h3 n hn)
    have h4 : p.items.has (.orb .tp n) = true := by unfold Dict.has; rw [hr]; rfl
    have h2 : p.items.get (.orb .tp n) = .ok r := by unfold Dict.get; rw [hr]
    refine ⟨q.value, r.value, _, hper, ?_, folded cat r.value q.value hpos' ts, .inr ⟨by unfold valueOf; rw [htc]; rfl, by unfold valueOf; rw [hr]; rfl⟩⟩
    simp only [h1, h4, if_true, Bool.false_eq_true, if_false, h2]
    rfl

/-- C52 is false for the bases with `logper`: `t_to_phase` raises `KeyError` for every such parameter set. -/
theorem C52_logper_violated (p : Params ℝ) (hu : UserParams p) (hb : PName.per ∉ p.basis.words) (n : Nat) (ts : List ℝ) (cat : Bool) :
    tToPhase p ts n cat = .error .keyError := by
  have hno : p.items.get? (.orb .per n) = none := by
    rw [Dict.get?_eq_none_iff]
    intro hmem
    exact hb ((hu.good.orb _ _).1 hmem).1
  unfold tToPhase
  have : p.items.get (.orb .per n) = .error .keyError := by unfold Dict.get; rw [hno]
  rw [this]
  rfl

/-- A planet with period 4, transit time 1 and a circular orbit. -/
noncomputable def phaseParams : Params ℝ :=
  ((Params.init (0 : ℝ) 1 .perTcEWK none).setItem (.orb .per 1) { value := (4 : ℝ) }).setItem (.orb .tc 1) { value := (1 : ℝ) }

theorem phaseParams_user : UserParams phaseParams := by
  have hk : (Params.init (0 : ℝ) 1 .perTcEWK none).items.keys = defaultKeys 1 (BasisName.words .perTcEWK) := Params.init_keys _ _ _ _
  refine .set _ _ _ (.set _ _ _ (.new 0 1 .perTcEWK none (by decide)) (.inl ?_) (by decide)) (.inl ?_) (by decide)
  · rw [hk]; decide
  · unfold Params.setItem
    rw [Dict.keys_set_of_mem _ _ (by rw [hk]; decide), hk]; decide

theorem phaseParams_values : valueOf phaseParams .per 1 = some 4 ∧ valueOf phaseParams .tc 1 = some 1 ∧ valueOf phaseParams .e 1 = some 0 ∧ valueOf phaseParams .w 1 = some 0 :=
  ⟨rfl, rfl, rfl, rfl⟩

/-- Non-vacuity of `C52_phase_partial`. -/
example : Complete phaseParams ∧ PName.per ∈ phaseParams.basis.words ∧ IsPlanet phaseParams 1 ∧ ∀ per, valueOf phaseParams .per 1 = some per → 0 < per := by
  refine ⟨phaseParams_user.good.complete, by show PName.per ∈ BasisName.words .perTcEWK; decide, ⟨le_refl 1, le_refl 1⟩, ?_⟩
  intro per h
  rw [phaseParams_values.1] at h
  cases h; norm_num

/-- Non-vacuity of `C52_logper_violated`. -/
example : UserParams (Params.init (3 : ℝ) 2 .logperTcSecoswSesinwK none) ∧ PName.per ∉ (Params.init (3 : ℝ) 2 .logperTcSecoswSesinwK none).basis.words :=
  ⟨.new 3 2 _ none (by decide), by decide⟩

/-- What `t_to_phase_vector` computes, in every basis: with the vector in step with the dictionary it folds on the time of periastron of the planet's orbit (as given by `to_synth`),
with the orbit's period. -/
theorem C92_vector (p : Params ℝ) (hu : UserParams p) (s : VState ℝ) (hs : VState.init p = .ok s) (orb : Nat → Synth) (ho : Elements p orb) (n : Nat) (hn : IsPlanet p n)
    (hpos : 0 < (orb n).per) (ts : List ℝ) (cat : Bool) :
    ∃ out, tToPhaseVectorArr s ts (n - 1) cat = .ok out ∧ Folded cat (orb n).tp (orb n).per ts out := by
  obtain ⟨s', f1, f2, f3, _⟩ := hu.good.model
  rw [f1] at hs; cases hs
  have hn' : n - 1 + 1 = n := by unfold IsPlanet at hn; omega
  obtain ⟨rows', e1, _, e3, _⟩ := vToSynth_spec f2
  have a0 := e3 (n - 1) 0 (by rw [f3]; unfold IsPlanet at hn; omega) (by omega)
  have a1 := e3 (n - 1) 1 (by rw [f3]; unfold IsPlanet at hn; omega) (by omega)
  rw [f3, hn', ← ho.eq hu.good.complete _ hn] at a0 a1
  obtain ⟨r0, b0, c0⟩ := Option.map_eq_some_iff.1 a0
  obtain ⟨r1, b1, c1⟩ := Option.map_eq_some_iff.1 a1
  have c0' : r0.value = (orb n).per := c0
  have c1' : r1.value = (orb n).tp := c1
  refine ⟨catPhase cat (ts.map (phaseAt (orb n).tp (orb n).per)), ?_, folded _ _ _ hpos ts⟩
  unfold tToPhaseVectorArr
  rw [e1]
  show (match rows'[5 * (n - 1)]?, rows'[5 * (n - 1) + 1]? with
    | some r0, some r1 => Except.ok (catPhase cat (ts.map (phaseAt r1.value r0.value)))
    | _, _ => Except.error PyErr.indexError) = _
  rw [b1, show rows'[5 * (n - 1)]? = some r0 from b0, ← c0', ← c1']

/-- C92 in the basis `per tp e w k` (missing: the others, `C92_transit_violated`, and the `logper` bases where `t_to_phase` raises): the two functions agree. -/
theorem C92_agree_partial (p : Params ℝ) (hu : UserParams p) (hb : p.basis = .perTpEWK) (s : VState ℝ) (hs : VState.init p = .ok s) (n : Nat) (hn : IsPlanet p n)
    (hpos : ∀ per, valueOf p .per n = some per → 0 < per) (ts : List ℝ) (cat : Bool) :
    ∃ out, tToPhaseVectorArr s ts (n - 1) cat = .ok out ∧ tToPhase p ts n cat = .ok out := by
  have hc := hu.good.complete
  obtain ⟨per, t0, out, h1, h2, h3, h4⟩ := C52_phase_partial p hc (by rw [hb]; decide) n hn hpos ts cat
  have hnotc : valueOf p .tc n = none := by
    unfold valueOf
    rw [Option.map_eq_none_iff, Dict.get?_eq_none_iff]
    intro hmem
    have := ((hu.good.orb _ _).1 hmem).1
    rw [hb] at this
    revert this; decide
  have h5 : valueOf p .tp n = some t0 := by
    rcases h4 with h | h
    · rw [hnotc] at h; cases h
    · exact h.2
  set orb := fun m => synthOfVals p.basis (valsOf p m) with horb
  have e1 : (orb n).per = per := by simp [horb, hb, synthOfVals, valsOf, h1]
  have e2 : (orb n).tp = t0 := by simp [horb, hb, synthOfVals, valsOf, h5]
  obtain ⟨out', g1, g2⟩ := C92_vector p hu s hs orb (elements_exist p hc) n hn (by rw [e1]; exact hpos _ h1) ts cat
  refine ⟨out, ?_, h2⟩
  rw [g1]
  congr 1
  rw [e1, e2] at g2
  obtain ⟨φ, a1, a2⟩ := g2
  obtain ⟨φ', b1, b2⟩ := h3
  have : φ = φ' := by
    have hp := hpos _ h1
    clear g1 h2 a2 b2
    induction a1 generalizing φ' with
    | nil => cases b1; rfl
    | cons x _ ih =>
      cases b1 with
      | cons y ys =>
        rw [ih _ ys, (C52_unique t0 per hp _ _ _ _ x y).2 ⟨0, by simp⟩]
  rw [a2, b2, this]

/-- Non-vacuity of `C92_agree_partial`: values can be written for the planets of `Params.init`. -/
example : UserParams (Params.init (3 : ℝ) 2 .perTpEWK none) ∧ IsPlanet (Params.init (3 : ℝ) 2 .perTpEWK none) 2 ∧
    (∀ per, valueOf (Params.init (3 : ℝ) 2 .perTpEWK none) .per 2 = some per → 0 < per) ∧ ∃ s, VState.init (Params.init (3 : ℝ) 2 .perTpEWK none) = .ok s := by
  have hu : UserParams (Params.init (3 : ℝ) 2 .perTpEWK none) := .new 3 2 _ none (by decide)
  refine ⟨hu, ⟨by decide, by decide⟩, ?_, ?_⟩
  · intro per h
    have : valueOf (Params.init (3 : ℝ) 2 .perTpEWK none) .per 2 = some 3 := rfl
    rw [this] at h; cases h; norm_num
  · obtain ⟨s, f1, _⟩ := hu.good.model
    exact ⟨s, f1⟩

/-- C92 is false in a basis with `tc`: at the time of transit of `phaseParams` the phase is 0 by `t_to_phase` and 1/4 by `t_to_phase_vector`. -/
theorem C92_transit_violated (s : VState ℝ) (hs : VState.init phaseParams = .ok s) :
    tToPhase phaseParams [1] 1 false = .ok [some 0] ∧ tToPhaseVectorArr s [1] 0 false = .ok [some (1 / 4)] := by
  constructor
  · have : tToPhase phaseParams [1] 1 false = .ok (catPhase false ([1].map (phaseAt 1 4))) := rfl
    rw [this]
    simp [catPhase, phaseAt]
  · have hc := phaseParams_user.good.complete
    set orb := fun m => synthOfVals phaseParams.basis (valsOf phaseParams m) with horb
    have hv := phaseParams_values
    have e1 : (orb 1).per = 4 := rfl
    have e2 : (orb 1).tp = 0 := by
      show timetransToTimeperi 1 4 0 0 = 0
      unfold timetransToTimeperi
      rw [if_neg (by norm_num)]
      have := ecc_zero_half
      rw [this]
      have hpi := pi_ne_zero
      simp
      field_simp
      norm_num
    obtain ⟨out, g1, φ, a1, a2⟩ := C92_vector phaseParams phaseParams_user s hs orb (elements_exist _ hc) 1 ⟨le_refl 1, le_refl 1⟩ (by rw [e1]; norm_num) [1] false
    rw [show (1 : Nat) - 1 = 0 from rfl] at g1
    rw [g1, a2]
    rw [e1, e2] at a1
    cases a1 with
    | cons x y =>
      cases y
      have : IsPhase 0 4 1 (1 / 4) := ⟨by norm_num, by norm_num, 0, by norm_num⟩
      rw [(C52_unique 0 4 (by norm_num) _ _ _ _ x this).2 ⟨0, by simp⟩]
      rfl

end Radvel
