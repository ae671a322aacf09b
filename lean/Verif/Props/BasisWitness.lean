import Verif.Props.Basis

/-!
# C13: conversions that change the curve (witnesses, for all values of one planet)
-/

namespace Radvel
open Real

/-- The result of converting one synth planet to `logper tp e w logk`: the new `tc` key is not removed. -/
theorem logper_result (dflt per tp e w k : ℝ) :
    toAnyBasis dflt .logperTpEWLogk (onePlanet per tp e w k) = .ok
      { numPlanets := 1, basis := .logperTpEWLogk, planetParameters := [.logper, .tp, .e, .w, .logk], letters := none,
        items := [(.orb .tp 1, { value := tp }), (.orb .e 1, { value := e }), (.orb .w 1, { value := w }),
          (.orb .logper 1, { value := log per }), (.orb .logk 1, { value := log k }),
          (.orb .tc 1, { value := timeperiToTimetrans tp per e w false })] } := by
  simp [toAnyBasis, toSynth, fromSynth, copyParams, Params.init, defaultKeys, onePlanet, BasisName.words, Dict.update, Dict.set,
    synthOf, newsOf, readTp, getpar, setpars, newPar, delpars, Dict.del, Dict.has, Dict.erase, Dict.get?, Synth.news, delsOf,
    List.range_succ, bind, Except.bind, pure, Except.pure]

/-- Converting any synth planet to `logper tp e w logk` replaces its time of periastron by its time of transit. -/
theorem logper_curve (dflt tb per tp e w k t : ℝ) (hper : 0 < per) (hk : 0 < k) (drive : Drive) :
    ∃ q, toAnyBasis dflt .logperTpEWLogk (onePlanet per tp e w k) = .ok q ∧
      curve drive tb q t = .ok (addNan (addNan (addNan (some 0)
        (drive t ⟨per, timeperiToTimetrans tp per e w false, e, w, k⟩)) (some 0)) (some 0)) := by
  refine ⟨_, logper_result dflt per tp e w k, ?_⟩
  simp [curve, VState.init, VState.dictToVector, VState.vectorNames, initIndexDict, instIndices, planetIndices, PName.registered,
    PName.offset, vectorSize, Dict.set, Dict.has, Dict.get?, Dict.keys, fillRows, rowOf, fillNames, nameExtra,
    List.range_succ, modelCall, standardRvCalc, vToSynth, convBlock, vToSynthBlock, vToSynthFlags, Row.conv, addPlanet, trendCoef,
    Row.zero, bind, Except.bind, pure, Except.pure, List.replicate, Real.exp_log hper, Real.exp_log hk]

theorem onePlanet_curve (tb per tp e w k t : ℝ) (drive : Drive) :
    curve drive tb (onePlanet per tp e w k) t = .ok (addNan (addNan (addNan (some 0) (drive t ⟨per, tp, e, w, k⟩)) (some 0)) (some 0)) := by
  simp [curve, onePlanet, VState.init, VState.dictToVector, VState.vectorNames, initIndexDict, instIndices, planetIndices, PName.registered,
    PName.offset, vectorSize, Dict.set, Dict.has, Dict.get?, Dict.keys, fillRows, rowOf, fillNames, nameExtra,
    List.range_succ, modelCall, standardRvCalc, vToSynth, addPlanet, trendCoef,
    Row.zero, bind, Except.bind, pure, Except.pure, List.replicate]

/-- C13 is false for the target `logper tp e w logk`: a circular orbit of period 4 and amplitude 1 at its maximum is predicted to be at
zero velocity after the conversion, whatever the solver. -/
theorem C13_logper_violated (dflt tb : ℝ) (solve : ℝ → ℝ → Option ℝ) (formula : ℝ → ℝ → ℝ → ℝ → ℝ) :
    ∃ p q : Params ℝ, toAnyBasis dflt .logperTpEWLogk p = .ok q ∧ SynthPlanet p 1 ⟨4, 0, 0, 0, 1⟩ ∧
      curve (driveOf solve formula) tb p 0 = .ok (some 1) ∧ curve (driveOf solve formula) tb q 0 = .ok (some 0) := by
  obtain ⟨q, h1, h2⟩ := logper_curve dflt tb 4 0 0 0 1 0 (by norm_num) (by norm_num) (driveOf solve formula)
  refine ⟨onePlanet 4 0 0 0 1, q, h1, onePlanet_synth _ _ _ _ _, ?_, ?_⟩
  · rw [onePlanet_curve]
    simp [driveOf, rvDrive, circular_eq, addNan]
  · rw [h2]
    have h1 : ¬ (1 : ℝ) ≤ 0 := by norm_num
    have h3 : eccAnomalyAt (π / 2) 0 = π / 2 := by simpa using ecc_zero_half
    have h5 : 2 * π * (-(4 / (2 * π) * (π / 2)) / 4) = -(π / 2) := by field_simp
    simp [driveOf, rvDrive, circular_eq, addNan, timeperiToTimetrans, h3, h1]
    rw [h5, Real.cos_neg, Real.cos_pi_div_two]

/-- One planet in `per tc secosw sesinw k`. -/
def oneSecosw (per tc x y k : ℝ) : Params ℝ :=
  { numPlanets := 1, basis := .perTcSecoswSesinwK, planetParameters := [.per, .tc, .secosw, .sesinw, .k], letters := none,
    items := [(.orb .per 1, { value := per }), (.orb .tc 1, { value := tc }), (.orb .secosw 1, { value := x }),
      (.orb .sesinw 1, { value := y }), (.orb .k 1, { value := k })] }

/-- The conversion to `per tc ecosw esinw k` leaves `secosw` and `sesinw` in the dictionary. -/
theorem ecosw_result (dflt per tc x y k : ℝ) :
    ∃ a b c, toAnyBasis dflt .perTcEcoswEsinwK (oneSecosw per tc x y k) = .ok
      { numPlanets := 1, basis := .perTcEcoswEsinwK, planetParameters := [.per, .tc, .ecosw, .esinw, .k], letters := none,
        items := [(.orb .per 1, { value := per }), (.orb .k 1, { value := k }), (.orb .tc 1, { value := c }),
          (.orb .secosw 1, { value := x }), (.orb .sesinw 1, { value := y }), (.orb .ecosw 1, { value := a }),
          (.orb .esinw 1, { value := b })] } ∧
      a = (x ^ 2 + y ^ 2) * cos (arctan2 y x) ∧ b = (x ^ 2 + y ^ 2) * sin (arctan2 y x) ∧ c = tc := by
  refine ⟨_, _, tc, ?_, rfl, rfl, rfl⟩
  simp [toAnyBasis, toSynth, fromSynth, copyParams, Params.init, defaultKeys, oneSecosw, BasisName.words, Dict.update, Dict.set,
    synthOf, newsOf, readTp, getpar, setpars, newPar, delpars, Dict.del, Dict.has, Dict.erase, Dict.get?, Synth.news, delsOf,
    List.range_succ, bind, Except.bind, pure, Except.pure, tc_tp_tc]

/-- After the conversion the curve is right, because the new keys happen to come last in the dictionary; after a copy (pickle, deepcopy)
of the converted parameters the leftover `secosw`, `sesinw` come last and are read as `ecosw`, `esinw`. -/
theorem ecosw_copy_curve (dflt tb per tc x y k t : ℝ) (drive : Drive) :
    ∃ q, toAnyBasis dflt .perTcEcoswEsinwK (oneSecosw per tc x y k) = .ok q ∧
      curve drive tb (Params.unpickle dflt q) t = .ok (addNan (addNan (addNan (some 0)
        (drive t ⟨per, timetransToTimeperi tc per √(x ^ 2 + y ^ 2) (arctan2 y x), √(x ^ 2 + y ^ 2), arctan2 y x, k⟩)) (some 0)) (some 0)) := by
  obtain ⟨a, b, c, h1, h2, h3, h4⟩ := ecosw_result dflt per tc x y k
  refine ⟨_, h1, ?_⟩
  subst h4
  simp [Params.unpickle, Params.init, defaultKeys, BasisName.words, Dict.update, curve, VState.init, VState.dictToVector, VState.vectorNames, initIndexDict, instIndices, planetIndices, PName.registered,
    PName.offset, vectorSize, Dict.set, Dict.has, Dict.get?, Dict.keys, fillRows, rowOf, fillNames, nameExtra,
    List.range_succ, modelCall, standardRvCalc, vToSynth, convBlock, vToSynthBlock, vToSynthFlags, Row.conv, addPlanet, trendCoef,
    Row.zero, bind, Except.bind, pure, Except.pure, List.replicate]

theorem oneSecosw_curve (tb per tc x y k t : ℝ) (drive : Drive) :
    curve drive tb (oneSecosw per tc x y k) t = .ok (addNan (addNan (addNan (some 0)
      (drive t ⟨per, timetransToTimeperi tc per (x ^ 2 + y ^ 2) (arctan2 y x), x ^ 2 + y ^ 2, arctan2 y x, k⟩)) (some 0)) (some 0)) := by
  simp [curve, oneSecosw, VState.init, VState.dictToVector, VState.vectorNames, initIndexDict, instIndices, planetIndices, PName.registered,
    PName.offset, vectorSize, Dict.set, Dict.has, Dict.get?, Dict.keys, fillRows, rowOf, fillNames, nameExtra,
    List.range_succ, modelCall, standardRvCalc, vToSynth, convBlock, vToSynthBlock, vToSynthFlags, Row.conv, addPlanet, trendCoef,
    Row.zero, bind, Except.bind, pure, Except.pure, List.replicate]

/-- C13 is false for a copy of the converted parameters: with `secosw = 1/2`, `sesinw = 0` (so e = 1/4) the copy reaches velocity
1.5 k, which the original orbit never does. The solver is any one that solves the trivial equation `M = 0`. -/
theorem C13_copy_violated (dflt tb : ℝ) (solve : ℝ → ℝ → Option ℝ) (hs : ∀ e, solve 0 e = some 0)
    (formula : ℝ → ℝ → ℝ → ℝ → ℝ) (hf : CodeFormula formula) :
    ∃ p q : Params ℝ, toAnyBasis dflt .perTcEcoswEsinwK p = .ok q ∧
      (∀ t v, curve (driveOf solve formula) tb p t = .ok (some v) → v ≤ 1.25) ∧
      ∃ t, curve (driveOf solve formula) tb (Params.unpickle dflt q) t = .ok (some 1.5) := by
  have hform : ∀ e om k E, formula e om k E = rvNumpy e om k E := by
    intro e om k E
    rcases hf with rfl | rfl
    · rfl
    · exact rvC_eq_numpy _ _ _ _
  have harg : arctan2 0 (1 / 2) = 0 := by
    unfold arctan2
    have : (⟨1 / 2, 0⟩ : ℂ) = ((1 / 2 : ℝ) : ℂ) := by apply Complex.ext <;> simp
    rw [this]
    exact Complex.arg_ofReal_of_nonneg (by norm_num)
  have hsq : √((1 / 2 : ℝ) ^ 2 + 0 ^ 2) = 1 / 2 := by
    rw [show ((1 / 2 : ℝ) ^ 2 + 0 ^ 2) = (1 / 2) ^ 2 by norm_num]
    exact Real.sqrt_sq (by norm_num)
  have hsq2 : (1 / 2 : ℝ) ^ 2 + 0 ^ 2 = 1 / 4 := by norm_num
  obtain ⟨q, h1, h2⟩ := ecosw_copy_curve dflt tb 1 0 (1 / 2) 0 1 (timetransToTimeperi 0 1 (1 / 2) 0) (driveOf solve formula)
  refine ⟨oneSecosw 1 0 (1 / 2) 0 1, q, h1, ?_, timetransToTimeperi 0 1 (1 / 2) 0, ?_⟩
  · intro t v hv
    rw [oneSecosw_curve, harg, hsq2] at hv
    have hE : ∃ E, v = rvNumpy (1 / 4) 0 1 E := by
      unfold driveOf rvDrive at hv
      have n1 : ¬ ((1 / 4 : ℝ) = 0) := by norm_num
      have n2 : ¬ ((1 : ℝ) < 0) := by norm_num
      have n3 : ¬ ((1 / 4 : ℝ) < 0) := by norm_num
      have n4 : ¬ ((1 / 4 : ℝ) > 0.99) := by norm_num
      simp only [n1, n2, n3, n4, if_false] at hv
      cases hso : solve (meanAnomaly t (timetransToTimeperi 0 1 (1 / 4) 0) 1) (1 / 4) with
      | none => simp only [hso, addNan, Option.map_none, Except.ok.injEq, reduceCtorEq] at hv
      | some E =>
        refine ⟨E, ?_⟩
        simp only [hso, addNan, hform, Option.map_some, Except.ok.injEq, Option.some.injEq] at hv
        rw [← hv]
        ring
    obtain ⟨E, rfl⟩ := hE
    unfold rvNumpy
    have := Real.cos_le_one (trueAnomalyOf (1 / 4) E + 0)
    rw [Real.cos_zero]
    norm_num at this ⊢
    linarith
  · rw [h2, harg, hsq]
    unfold driveOf rvDrive
    have n1 : ¬ ((1 / 2 : ℝ) = 0) := by norm_num
    have n2 : ¬ ((1 : ℝ) < 0) := by norm_num
    have n3 : ¬ ((1 / 2 : ℝ) < 0) := by norm_num
    have n4 : ¬ ((1 / 2 : ℝ) > 0.99) := by norm_num
    have hM : meanAnomaly (timetransToTimeperi 0 1 (1 / 2) 0) (timetransToTimeperi 0 1 (1 / 2) 0) 1 = 0 := by
      simp [meanAnomaly]
    simp only [n1, n2, n3, n4, if_false, hM, hs, Option.map_some, hform, addNan]
    have : rvNumpy (1 / 2) 0 1 0 = 1.5 := by
      simp [rvNumpy, trueAnomalyOf]; norm_num
    rw [this]; norm_num

/-- Both solvers of the code solve `M = 0`, so the hypothesis of `C13_copy_violated` holds for them. -/
example : (∀ e, cSolve 0 e = some 0) ∧ ∀ e fuel, npSolve fuel 0 e = some 0 := by
  have h0 : ¬ ((1 : ℝ) ≤ 0) := by norm_num
  have h1 : ¬ ((0 : ℝ) ≤ -1) := by norm_num
  have hu : ∀ e, unconverged 0 e (some 0) = false := by
    intro e; simp [unconverged, keplerFi, conv]; norm_num
  constructor
  · intro e
    simp [cSolve, cKepler, cLoop, cGuess, cSign, h0, hu]
  · intro e fuel
    have hn : npInit [(0, e)] = [{ M := 0, e := e, E := some 0 }] := by simp [npInit, npGuess]
    have hact : ({ M := 0, e := e, E := some 0 } : KElem).active = false := hu e
    simp only [npSolve, npKepler, hn]
    cases fuel <;> simp [npLoop, hact]

end Radvel
