import Verif.Props.Mcmc

/-!
# Property theorems C61 (negation), C95 and C96: concrete runs
-/

namespace Radvel
open Classical

/-! ## C61 -/

/-- A check that is not too early computes the statistics. -/
theorem convergenceCheck_computed {itime : List Ens → List Fl} {cfg : McConfig} (hmin : cfg.minpercent ≤ 0) {st st' : McState} (h : convergenceCheck itime cfg st = .ok st') :
    ∃ out maxgr minaf, convergenceCalculate itime (st.samplers.map (chainT cfg.ndim cfg.nwalkers)) st.oac cfg.th = .ok out ∧ Fl.pyMax out.gelmanrubin = .ok maxgr ∧
      Fl.npMin out.afactor = .ok minaf ∧ st'.maxgr = maxgr ∧ st'.minafactor = minaf ∧ st'.oac = some out.autocorrelation ∧
      st'.mixcount = (if out.ismixed then st.mixcount + 1 else 0) ∧ st'.trace = st.trace ++ [⟨true, out.ismixed, st.burnComplete⟩] := by
  unfold convergenceCheck at h
  simp only at h
  split at h
  · cases h
  · rcases hl : st.samplers.getLast? with _ | last
    · rw [hl] at h; cases h
    · rw [hl] at h
      simp only at h
      split at h
      · rename_i hte
        exfalso
        have h1 : (0 : ℝ) ≤ ((st.nburn + (st.samplers.map fun s => s.chain.length * cfg.nwalkers).sum : Nat) : ℝ) / ((cfg.nrun * cfg.nwalkers * cfg.ensembles : Nat) : ℝ) * 100 := by positivity
        linarith [hte.1]
      · obtain ⟨_, _, _, _, out, maxgr, h4, h5, h6, h7, h8, h9, h10⟩ := checkStats_spec h
        have h4' : convergenceCalculate itime (st.samplers.map (chainT cfg.ndim cfg.nwalkers)) st.oac cfg.th = .ok out := h4
        obtain ⟨_, _, a, b, c, d, ha, hb, hc, hd, _⟩ := conv_raw h4'
        refine ⟨out, maxgr, c, h4', h5, hc, h6, ?_, h7, h9, h10⟩
        unfold checkStats at h
        simp only [bind, Except.bind] at h
        rw [h4'] at h
        simp only at h
        rw [ha, hb, hc, hd] at h
        simp only at h
        rcases he : Fl.npMin out.autocorrelation with e | oacMin
        · rw [he] at h; cases h
        rcases hf : Fl.npMax out.autocorrelation with e | oacMax
        · rw [he, hf] at h; cases h
        rw [he, hf] at h
        simp only [pure, Except.pure] at h
        cases h
        by_cases hbc : st.burnComplete = true
        · simp only [hbc, if_true]
        · rw [Bool.not_eq_true] at hbc
          simp only [hbc, Bool.false_eq_true, if_false]

/-- The chains seen by the three checks of the small run. -/
def small1 : List Ens := [[[[-1, -1], [1, 1]]], [[[1, 1], [3, 3]]]]
def small2 : List Ens := [[[[-1, -1, -1, -1], [1, 1, 1, 1]]], [[[1, 1, -3, -3], [3, 3, -1, -1]]]]
def small3 : List Ens := [[[[-1, -1], [1, 1]]], [[[-1, -1], [1, 1]]]]

theorem small1_gr (old : Option (List Fl)) (out : ConvOut) (h : convergenceCalculate (fun _ => [.fin 1]) small1 old smallConfig.th = .ok out) :
    ∃ g, Fl.pyMax out.gelmanrubin = .ok g ∧ ¬ g.leq smallConfig.burnGR := by
  have hr : Rect small1 1 2 2 := by
    intro e he
    simp only [small1, List.mem_cons, List.not_mem_nil, or_false] at he
    rcases he with rfl | rfl <;> simp
  have f := convFacts hr h
  have hw : within (parChains small1 0) = 1 := by norm_num [within, pvar, mean, parChains, small1]
  have hv : varMeans (parChains small1 0) = 1 := by norm_num [varMeans, pvar, mean, parChains, small1]
  have hgr : out.gelmanrubin = [.fin (Real.sqrt (7 / 4))] := by
    rw [f.gr]
    simp only [List.range_one, List.map_cons, List.map_nil, grOf, varEstimate, hw, hv, Fl.quot]
    rw [if_neg one_ne_zero]
    norm_num [Fl.sqrt]
  refine ⟨.fin (Real.sqrt (7 / 4)), by rw [hgr]; rfl, ?_⟩
  show ¬ _ ≤ _
  rw [not_le, Real.lt_sqrt (by norm_num)]
  norm_num

theorem small_mixed (chains : List Ens) (ns : Nat) (hr : Rect chains 1 2 ns) (hlen : chains.length = 2) (hns : 2 ≤ ns) (w : ℝ) (hw : within (parChains chains 0) = w) (hwpos : 0 < w)
    (hv : varMeans (parChains chains 0) = 0) (out : ConvOut) (h : convergenceCalculate (fun _ => [.fin 1]) chains (some [.fin 1]) smallConfig.th = .ok out) :
    out.ismixed = true ∧ ∃ g, Fl.pyMax out.gelmanrubin = .ok g ∧ g.leq smallConfig.burnGR := by
  have f := convFacts hr h
  have hn1 : (1 : ℝ) < ((2 * ns : Nat) : ℝ) := by exact_mod_cast f.steps
  have hle : 0 ≤ 1 - 1 / (((2 * ns : Nat) : ℝ)) := by rw [sub_nonneg, div_le_one (by linarith)]; linarith
  have hgr : out.gelmanrubin = [.fin (Real.sqrt (1 - 1 / (((2 * ns : Nat) : ℝ))))] := by
    rw [f.gr]
    simp only [List.range_one, List.map_cons, List.map_nil, grOf, varEstimate, hw, hv, Fl.quot]
    rw [if_neg hwpos.ne']
    have : ((1 - 1 / (((2 * ns : Nat) : ℝ))) * w + 1 / (((2 * ns : Nat) : ℝ)) * (0 * ((2 * ns : Nat) : ℝ))) / w = 1 - 1 / (((2 * ns : Nat) : ℝ)) := by
      field_simp
      ring
    rw [this]
    show [if _ then _ else _] = _
    rw [if_pos hle]
  have hsq : Real.sqrt (1 - 1 / (((2 * ns : Nat) : ℝ))) ≤ 1 := by
    have : 0 ≤ 1 / (((2 * ns : Nat) : ℝ)) := by positivity
    exact Real.sqrt_le_iff.2 ⟨by norm_num, by linarith⟩
  have htz : out.tz = [.fin (-1)] := (C65_good_mixing_violated _ chains 1 2 ns hr (by omega) _ _ out h (by
    intro p hp
    have hp0 : p = 0 := by omega
    subst hp0
    have hV : varMeans (parChains chains 0) = pvar (chains.map fun e => mean (e.getD 0 []).flatten) := by unfold varMeans parChains; rw [List.map_map]; rfl
    have hW : within (parChains chains 0) = mean (chains.map fun e => pvar (e.getD 0 []).flatten) := by unfold within parChains; rw [List.map_map]; rfl
    rw [← hV, ← hW, hv, hw, mul_zero]
    exact hwpos.le)).1
  obtain ⟨a, b, c, d, h1, h2, h3, h4, h5⟩ := f.mixed
  rw [htz] at h1; cases h1
  rw [hgr] at h2; cases h2
  have haf : out.afactor = [.fin (2 * ns)] := by
    cases chains with
    | nil => simp at hlen
    | cons e0 es =>
      unfold convergenceCalculate at h
      simp only at h
      split at h
      · cases h
      · rcases g1 : Fl.pyMin (tzOf ((e0.getD 0 []).flatten.length : ℝ) ((e0 :: es).length : ℝ) ((List.range e0.length).map (parChains (e0 :: es)))) with e | a
        · rw [g1] at h; cases h
        rcases g2 : Fl.pyMax (((List.range e0.length).map (parChains (e0 :: es))).map (grOf ((e0.getD 0 []).flatten.length : ℝ))) with e | b
        · rw [g1, g2] at h; cases h
        rcases g3 : Fl.npMin ([Fl.fin 1].map (Fl.div (.fin (((e0 :: es).length : ℝ) * ((e0.getD 0 []).getD 0 []).length)))) with e | c
        · rw [g1, g2, g3] at h; cases h
        rcases g4 : Fl.npMax (archangeOf [.fin 1] (some [.fin 1])) with e | d
        · rw [g1, g2, g3, g4] at h; cases h
        rw [g1, g2, g3, g4] at h
        cases h
        have hsz : ((e0.getD 0 []).getD 0 []).length = ns := by
          obtain ⟨k1, k2⟩ := hr e0 (by simp)
          have hl0 : 0 < e0.length := by omega
          rw [List.getD_eq_getElem _ _ hl0]
          obtain ⟨k3, k4⟩ := k2 _ (List.getElem_mem hl0)
          have hl1 : 0 < (e0[0]).length := by omega
          rw [List.getD_eq_getElem _ _ hl1]
          exact k4 _ (List.getElem_mem hl1)
        show [Fl.div _ _] = _
        rw [hsz, hlen]
        simp [Fl.div, Fl.quot]
  have har : out.archange = [.fin 0] := by
    rw [f.archange]
    show [((Fl.fin 1).sub (.fin 1)).abs.div (.fin 1)] = _
    have : (Fl.fin 1).sub (.fin 1) = .fin (1 + -1) := rfl
    rw [this]
    simp [Fl.abs, Fl.div, Fl.quot]
  rw [haf] at h3
  rw [har] at h4
  have hc : c = .fin (2 * ns) := by
    unfold Fl.npMin at h3
    rw [if_neg (by simp)] at h3
    cases h3; rfl
  have hd : d = .fin 0 := by
    unfold Fl.npMax at h4
    rw [if_neg (by simp)] at h4
    cases h4; rfl
  refine ⟨h5.2 ⟨?_, ?_, ?_, ?_⟩, .fin (Real.sqrt (1 - 1 / (((2 * ns : Nat) : ℝ)))), by rw [hgr]; rfl, ?_⟩
  · rw [hlen, if_pos (by norm_num)]; show (-2 : ℝ) < -1; norm_num
  · show _ < (101 / 100 : ℝ); linarith
  · rw [hc]; show (2 : ℝ) < 2 * ns
    have : (2 : ℝ) ≤ ns := by exact_mod_cast hns
    linarith
  · rw [hd]; show (0 : ℝ) < 3 / 100; norm_num
  · show _ ≤ (103 / 100 : ℝ); linarith

/-- C61 is false, also with `maxGR ≤ burnGR`: a run that stops early although the first of the two passed checks was made on burn-in samples. -/
theorem C61_violated : ∃ (itime : List Ens → List Fl) (moves : Nat → Nat → Pos → Move) (cfg : McConfig) (st0 st : McState) (f : ChainFrame),
    cfg.th.maxGR.leq cfg.burnGR ∧ IsStart cfg st0 ∧ mcmcRun itime moves cfg st0 = .ok (f, st, true) ∧
    ∃ pre a b, computedChecks st = pre ++ [a, b] ∧ a.passed = true ∧ a.post = false := by
  have hmp : smallConfig.minpercent ≤ 0 := le_rfl
  have hi : ∀ chains : List Ens, (fun _ => [Fl.fin 1] : List Ens → List Fl) chains ≠ [] := by simp
  have ht : ∀ st : McState, Going st → ∃ st', mcmcRound (fun _ => [.fin 1]) smallMoves smallConfig st = .ok st' := fun st hg =>
    mcmcRound_total _ smallMoves smallConfig st (by decide) (by decide) (by decide) (by decide) (by decide) hg.ne hi hg.oac
  have hburn : ∀ (st : McState), st.burnComplete = false → ¬ st.maxgr.leq smallConfig.burnGR → st.minafactor = .fin 4 → burnStep smallConfig st = st := by
    intro st h1 h2 h3
    unfold burnStep
    rw [if_neg]
    rintro ⟨_, h4 | h4⟩
    · exact h2 h4
    · rw [h3] at h4
      have : (25 : ℝ) ≤ 4 := h4
      norm_num at this
  -- round 1
  have hg0 : Going smallStart := ⟨by simp [smallStart, startFresh], by intro l hl; cases hl⟩
  obtain ⟨st1, hr1⟩ := ht _ hg0
  have hg1 := hg0.round hi hr1
  obtain ⟨c1, hc1, e1⟩ := mcmcRound_spec hr1
  obtain ⟨fr1, _, _, _, _, _⟩ := convergenceCheck_spec hc1
  obtain ⟨o1, g1, m1, a1, a2, a3, a4, a5, a6, a7, a8⟩ := convergenceCheck_computed hmp hc1
  have hs1 : (afterBlocks smallConfig smallMoves smallStart).samplers =
      [⟨[[[-1], [1]], [[-1], [1]]], [[.fin 0, .fin 0], [.fin 0, .fin 0]], [2, 2], 2⟩, ⟨[[[1], [3]], [[1], [3]]], [[.fin 0, .fin 0], [.fin 0, .fin 0]], [2, 2], 2⟩] := by
    simp [afterBlocks, smallStart, startFresh, blocks, block, Sampler.advance, Sampler.store, smallMoves, smallConfig, startPos]
  have hch1 : (afterBlocks smallConfig smallMoves smallStart).samplers.map (chainT smallConfig.ndim smallConfig.nwalkers) = small1 := by
    rw [hs1]; rfl
  rw [hch1] at a1
  have hnm : o1.ismixed = false := C66_first _ _ _ _ a1
  obtain ⟨g, gg1, gg2⟩ := small1_gr _ _ a1
  rw [a2] at gg1; cases gg1
  have hmaf : m1 = .fin 4 := by
    have haf : o1.afactor = [.fin 4] := by
      unfold convergenceCalculate small1 at a1
      simp only at a1
      split at a1
      · cases a1
      · generalize tzOf _ _ _ = tz at a1
        generalize List.map (grOf _) _ = gr at a1
        generalize harr : archangeOf _ _ = ar at a1
        generalize hafe : List.map (Fl.div _) _ = af at a1
        rcases k1 : Fl.pyMin tz with e | a
        · rw [k1] at a1; cases a1
        rcases k2 : Fl.pyMax gr with e | b
        · rw [k1, k2] at a1; cases a1
        rcases k3 : Fl.npMin af with e | c
        · rw [k1, k2, k3] at a1; cases a1
        rcases k4 : Fl.npMax ar with e | d
        · rw [k1, k2, k3, k4] at a1; cases a1
        rw [k1, k2, k3, k4] at a1
        cases a1
        show af = _
        rw [← hafe]
        norm_num [Fl.div, Fl.quot]
    rw [haf] at a3
    unfold Fl.npMin at a3
    rw [if_neg (by simp)] at a3
    cases a3; rfl
  have e1' : st1 = { c1 with file := c1.file.map (saveAll c1 0 c1.samplers) } := by
    rw [e1]
    apply hburn
    · exact fr1.burnComplete
    · show ¬ c1.maxgr.leq _; rw [a4]; exact gg2
    · show c1.minafactor = _; rw [a5, hmaf]
  have t1 : st1.trace = [⟨true, false, false⟩] := by rw [e1']; show c1.trace = _; rw [a8, hnm]; rfl
  have x1 : st1.mixcount = 0 := by rw [e1']; show c1.mixcount = _; rw [a7, hnm]; rfl
  have s1 : st1.samplers = [⟨[[[-1], [1]], [[-1], [1]]], [[.fin 0, .fin 0], [.fin 0, .fin 0]], [2, 2], 2⟩,
      ⟨[[[1], [3]], [[1], [3]]], [[.fin 0, .fin 0], [.fin 0, .fin 0]], [2, 2], 2⟩] := by rw [e1']; show c1.samplers = _; rw [fr1.samplers, hs1]
  have b1 : st1.burnComplete = false := by rw [e1']; exact fr1.burnComplete
  have o1' : st1.oac = some [.fin 1] := by rw [e1']; show c1.oac = _; rw [a6, (conv_raw a1).1]
  have st1s : st1.started = true := by rw [e1']; exact fr1.started
  -- round 2
  obtain ⟨st2, hr2⟩ := ht _ hg1
  have hg2 := hg1.round hi hr2
  obtain ⟨c2, hc2, e2⟩ := mcmcRound_spec hr2
  obtain ⟨fr2, _, _, _, _, _⟩ := convergenceCheck_spec hc2
  obtain ⟨o2, g2, m2, p1, p2, p3, p4, p5, p6, p7, p8⟩ := convergenceCheck_computed hmp hc2
  have hs2 : (afterBlocks smallConfig smallMoves st1).samplers =
      [⟨[[[-1], [1]], [[-1], [1]], [[-1], [1]], [[-1], [1]]], [[.fin 0, .fin 0], [.fin 0, .fin 0], [.fin 0, .fin 0], [.fin 0, .fin 0]], [4, 4], 4⟩,
       ⟨[[[1], [3]], [[1], [3]], [[-3], [-1]], [[-3], [-1]]], [[.fin 0, .fin 0], [.fin 0, .fin 0], [.fin 0, .fin 0], [.fin 0, .fin 0]], [4, 4], 4⟩] := by
    simp [afterBlocks, s1, blocks, block, Sampler.advance, Sampler.store, smallMoves, smallConfig]
  have hch2 : (afterBlocks smallConfig smallMoves st1).samplers.map (chainT smallConfig.ndim smallConfig.nwalkers) = small2 := by
    rw [hs2]; rfl
  rw [hch2, show (afterBlocks smallConfig smallMoves st1).oac = some [.fin 1] from o1'] at p1
  have hr2' : Rect small2 1 2 4 := by
    intro e he
    simp only [small2, List.mem_cons, List.not_mem_nil, or_false] at he
    rcases he with rfl | rfl <;> simp
  obtain ⟨mx2, gr2, q1, q2⟩ := small_mixed small2 4 hr2' rfl (by omega) 3 (by norm_num [within, pvar, mean, parChains, small2]) (by norm_num)
    (by norm_num [varMeans, pvar, mean, parChains, small2]) o2 p1
  rw [p2] at q1; cases q1
  have cb2 : c2.burnComplete = false := by rw [fr2.burnComplete]; exact b1
  have e2' : burnStep smallConfig { c2 with file := c2.file.map (saveAll c2 0 c2.samplers) } =
      { c2 with file := c2.file.map (saveAll c2 0 c2.samplers), inits := List.zipWith (fun s i => s.chain.getLastD i) c2.samplers c2.inits,
                samplers := c2.samplers.map Sampler.reset, nburn := c2.ncomplete, burnComplete := true } := by
    unfold burnStep
    rw [if_pos]
    exact ⟨cb2, .inl (by show c2.maxgr.leq _; rw [p4]; exact q2)⟩
  rw [e2'] at e2
  have t2 : st2.trace = [⟨true, false, false⟩, ⟨true, true, false⟩] := by
    rw [e2]; show c2.trace = _; rw [p8, mx2, show (afterBlocks smallConfig smallMoves st1).trace = st1.trace from rfl, t1,
      show (afterBlocks smallConfig smallMoves st1).burnComplete = st1.burnComplete from rfl, b1]; rfl
  have x2 : st2.mixcount = 1 := by
    rw [e2]; show c2.mixcount = _; rw [p7, mx2, show (afterBlocks smallConfig smallMoves st1).mixcount = st1.mixcount from rfl, x1]; rfl
  have s2 : st2.samplers = [⟨[], [], [0, 0], 4⟩, ⟨[], [], [0, 0], 4⟩] := by
    rw [e2]; show c2.samplers.map _ = _; rw [fr2.samplers, hs2]; rfl
  have o2' : st2.oac = some [.fin 1] := by rw [e2]; show c2.oac = _; rw [p6, (conv_raw p1).1]
  -- round 3
  obtain ⟨st3, hr3⟩ := ht _ hg2
  obtain ⟨c3, hc3, e3⟩ := mcmcRound_spec hr3
  obtain ⟨fr3, htab, _, _, _, _⟩ := convergenceCheck_spec hc3
  obtain ⟨o3, g3, m3, r1, r2, r3, r4, r5, r6, r7, r8⟩ := convergenceCheck_computed hmp hc3
  have hs3 : (afterBlocks smallConfig smallMoves st2).samplers =
      [⟨[[[-1], [1]], [[-1], [1]]], [[.fin 0, .fin 0], [.fin 0, .fin 0]], [2, 2], 6⟩, ⟨[[[-1], [1]], [[-1], [1]]], [[.fin 0, .fin 0], [.fin 0, .fin 0]], [2, 2], 6⟩] := by
    simp [afterBlocks, s2, blocks, block, Sampler.advance, Sampler.store, smallMoves, smallConfig]
  have hch3 : (afterBlocks smallConfig smallMoves st2).samplers.map (chainT smallConfig.ndim smallConfig.nwalkers) = small3 := by
    rw [hs3]; rfl
  rw [hch3, show (afterBlocks smallConfig smallMoves st2).oac = some [.fin 1] from o2'] at r1
  have hr3' : Rect small3 1 2 2 := by
    intro e he
    simp only [small3, List.mem_cons, List.not_mem_nil, or_false] at he
    rcases he with rfl | rfl <;> simp
  obtain ⟨mx3, _⟩ := small_mixed small3 2 hr3' rfl (by omega) 1 (by norm_num [within, pvar, mean, parChains, small3]) (by norm_num)
    (by norm_num [varMeans, pvar, mean, parChains, small3]) o3 r1
  obtain ⟨y1, y2, _, y4, _⟩ := burnStep_fields smallConfig { c3 with file := c3.file.map (saveAll c3 0 c3.samplers) }
  have x3 : st3.mixcount = 2 := by
    rw [e3, y1]; show c3.mixcount = _; rw [r7, mx3, show (afterBlocks smallConfig smallMoves st2).mixcount = st2.mixcount from rfl, x2]; rfl
  have t3 : ∃ p, st3.trace = [⟨true, false, false⟩, ⟨true, true, false⟩, ⟨true, true, p⟩] := by
    refine ⟨(afterBlocks smallConfig smallMoves st2).burnComplete, ?_⟩
    rw [e3, y2]; show c3.trace = _; rw [r8, mx3, show (afterBlocks smallConfig smallMoves st2).trace = st2.trace from rfl, t2]; rfl
  obtain ⟨p, t3⟩ := t3
  have hloop : mcmcLoop (fun _ => [.fin 1]) smallMoves smallConfig 10 smallStart = .ok (st3, true) := by
    unfold mcmcLoop; rw [hr1]; simp only; rw [if_neg (by omega)]
    unfold mcmcLoop; rw [hr2]; simp only; rw [if_neg (by omega)]
    unfold mcmcLoop; rw [hr3]; simp only; rw [if_pos (by omega)]
  have hnum : numRun smallConfig.nrun smallConfig.checkinterval = .ok 10 := by
    have hrd : roundEven (10 : ℝ) = 10 := by
      have := roundEven_int 10
      norm_num at this ⊢
      exact this
    unfold numRun
    show (if (2 : Nat) = 1 then _ else _) = _
    rw [if_neg (by norm_num)]
    show Except.ok (roundEven (((10 : Nat) : ℝ) / (((2 : Nat) : ℝ) - 1))).toNat = _
    have : ((10 : Nat) : ℝ) / (((2 : Nat) : ℝ) - 1) = 10 := by norm_num
    rw [this, hrd]; rfl
  have hfin : ∃ f, finish smallConfig st3 = .ok f := by
    unfold finish
    have : st3.table = c3.table := by rw [e3, y4]
    rw [this, htab, hch3]
    simp only
    rw [if_neg (by simp [buildFrame, small3, smallConfig]), if_neg (by decide)]
    exact ⟨_, rfl⟩
  obtain ⟨f, hfin⟩ := hfin
  refine ⟨fun _ => [.fin 1], smallMoves, smallConfig, smallStart, st3, f, ?_, smallStart_isStart, ?_, [⟨true, false, false⟩], ⟨true, true, false⟩, ⟨true, true, p⟩, ?_, rfl, rfl⟩
  · show (101 / 100 : ℝ) ≤ 103 / 100; norm_num
  · unfold mcmcRun
    rw [hnum]
    simp only [bind, Except.bind]
    rw [hloop]
    simp only
    rw [hfin]
    rfl
  · unfold computedChecks; rw [t3]; rfl

/-! ## C95 -/

/-- Each stored sample is one move away from the stored sample before it (the first from `p`). -/
def StepsFrom (moves : Nat → Pos → Move) : Nat → Pos → List Pos → Prop
  | _, _, [] => True
  | n, p, x :: xs => x = (moves n p).pos ∧ StepsFrom moves (n + 1) x xs

theorem advance_steps (moves : Nat → Pos → Move) (k : Nat) : ∀ (s : Sampler) (p : Pos), ∃ xs : List Pos, (s.advance moves p k).chain = s.chain ++ xs ∧ xs.length = k ∧ StepsFrom moves s.count p xs := by
  induction k with
  | zero => intro s p; exact ⟨[], by simp [Sampler.advance], rfl, trivial⟩
  | succ k ih =>
    intro s p
    obtain ⟨xs, h1, h2, h3⟩ := ih (s.store (moves s.count p)) (moves s.count p).pos
    refine ⟨(moves s.count p).pos :: xs, ?_, by simp [h2], rfl, h3⟩
    unfold Sampler.advance
    simp only
    rw [h1]
    simp [Sampler.store]

/-- C95, what a block of `checkinterval ≥ 2` stored samples is: the first is one move from the start position `p`, and the others are successive moves, but beginning again at `p`, not at
the first sample. (Missing for C95: that the second sample is one move from the first; false, next theorem.) -/
theorem C95_block_partial (ci : Nat) (hci : 2 ≤ ci) (moves : Nat → Pos → Move) (started : Bool) (s : Sampler) (init : Pos) :
    ∃ (p x1 x2 : Pos) (xs : List Pos), p = (if s.chain.length ≤ 1 ∨ started = false then init else s.chain.getLastD init) ∧
      (block ci moves started s init).chain = s.chain ++ x1 :: x2 :: xs ∧ xs.length = ci - 2 ∧
      x1 = (moves s.count p).pos ∧ x2 = (moves (s.count + 1) p).pos ∧ StepsFrom moves (s.count + 2) x2 xs := by
  obtain ⟨ys, h1, h2, h3⟩ := advance_steps moves 1 s (startPos started s init)
  obtain ⟨zs, h4, h5, h6⟩ := advance_steps moves (ci - 1) (s.advance moves (startPos started s init) 1) (startPos started s init)
  have hcount : (s.advance moves (startPos started s init) 1).count = s.count + 1 := rfl
  rw [hcount] at h6
  cases zs with
  | nil => simp at h5; omega
  | cons x2 xs =>
    refine ⟨startPos started s init, (moves s.count (startPos started s init)).pos, x2, xs, rfl, ?_, by simp at h5; omega, rfl, h6.1, h6.2⟩
    unfold block
    simp only
    rw [h4]
    show (s.store (moves s.count (startPos started s init))).chain ++ _ = _
    simp [Sampler.store]

/-- C95 is false: with moves that add 1 to every coordinate, two rounds of two steps from 0 store 1, 1, 2, 2 instead of 1, 2, 3, 4. -/
theorem C95_restart_violated : ∃ (moves : Nat → Pos → Move) (s1 s2 : Sampler), s1 = block 2 moves false ⟨[], [], [], 0⟩ [[0]] ∧ s2 = block 2 moves true s1 [[0]] ∧
    s2.chain = [[[1]], [[1]], [[2]], [[2]]] ∧ ¬ StepsFrom moves 0 [[0]] s2.chain := by
  refine ⟨fun _ p => ⟨p.map fun w => w.map (· + 1), [], []⟩, _, _, rfl, rfl, ?_, ?_⟩
  · norm_num [block, startPos, Sampler.advance, Sampler.store]
  · norm_num [block, startPos, Sampler.advance, Sampler.store, StepsFrom]

/-! ## C96 -/

/-- C96 is false: with so few steps that no round is made, a second run in the same process returns, without error and under its own column names, the table an earlier run has left in the
global `statevars`. -/
theorem C96_stale_violated (itime : List Ens → List Fl) (moves : Nat → Nat → Pos → Move) (cfg : McConfig) (hsmall : 2 * cfg.nrun + 1 < cfg.checkinterval) (hthin : cfg.thin = 1)
    (p0 : List Pos) (file : Option H5) (chains : List Ens) (ln : List (List (List Fl))) (hnd : (chains.headD []).length = cfg.ndim) :
    ∃ f st, mcmcRun itime moves cfg (startFresh p0 cfg.nwalkers file (some (chains, ln))) = .ok (f, st, false) ∧
      f.cols = (buildFrame chains ln).cols.map (everyNth 1) ∧ f.ln = everyNth 1 (buildFrame chains ln).ln := by
  have hn : numRun cfg.nrun cfg.checkinterval = .ok 0 := by
    have h := C62_least_violated itime moves cfg hsmall p0 file
    unfold mcmcRun at h
    unfold numRun at h ⊢
    rw [if_neg (by omega)] at h ⊢
    congr 1
    have h2 : (2 * cfg.nrun + 2 : ℝ) ≤ cfg.checkinterval := by exact_mod_cast hsmall
    have hd : (0 : ℝ) < (cfg.checkinterval : ℝ) - 1 := by
      have : (0 : ℝ) ≤ cfg.nrun := Nat.cast_nonneg _
      linarith
    have hx0 : 0 ≤ (cfg.nrun : ℝ) / ((cfg.checkinterval : ℝ) - 1) := div_nonneg (Nat.cast_nonneg _) hd.le
    have hx1 : (cfg.nrun : ℝ) / ((cfg.checkinterval : ℝ) - 1) < 1 / 2 := by
      rw [div_lt_iff₀ hd]; linarith
    have hfl : ⌊(cfg.nrun : ℝ) / ((cfg.checkinterval : ℝ) - 1)⌋ = 0 := by
      rw [Int.floor_eq_iff]; constructor
      · simpa using hx0
      · push_cast; linarith
    unfold roundEven
    have hfr : Int.fract ((cfg.nrun : ℝ) / ((cfg.checkinterval : ℝ) - 1)) < 1 / 2 := by
      unfold Int.fract; rw [hfl]; simpa using hx1
    rw [if_pos hfr, hfl]
    rfl
  have hf : finish cfg (startFresh p0 cfg.nwalkers file (some (chains, ln))) = .ok ⟨(buildFrame chains ln).cols.map (everyNth 1), everyNth 1 (buildFrame chains ln).ln⟩ := by
    unfold finish startFresh
    simp only
    rw [if_neg (by simp [buildFrame] at *; omega), if_neg (by omega), hthin]
  refine ⟨⟨(buildFrame chains ln).cols.map (everyNth 1), everyNth 1 (buildFrame chains ln).ln⟩, startFresh p0 cfg.nwalkers file (some (chains, ln)), ?_, rfl, rfl⟩
  unfold mcmcRun
  rw [hn]
  simp only [bind, Except.bind]
  unfold mcmcLoop
  simp only
  rw [hf]
  rfl

/-- C96 where it holds: as soon as one round is made, the result does not depend on what an earlier run left behind. -/
theorem C96_own_partial (itime : List Ens → List Fl) (moves : Nat → Nat → Pos → Move) (cfg : McConfig) (p0 : List Pos) (file : Option H5)
    (prev prev' : Option (List Ens × List (List (List Fl)))) (n : Nat) :
    mcmcLoop itime moves cfg (n + 1) (startFresh p0 cfg.nwalkers file prev) = mcmcLoop itime moves cfg (n + 1) (startFresh p0 cfg.nwalkers file prev') := by
  have h : mcmcRound itime moves cfg (startFresh p0 cfg.nwalkers file prev) = mcmcRound itime moves cfg (startFresh p0 cfg.nwalkers file prev') := rfl
  unfold mcmcLoop
  rw [h]

/-- Non-vacuity of `C96_stale_violated` and `C62_least_violated`. -/
example : ∃ cfg : McConfig, 2 * cfg.nrun + 1 < cfg.checkinterval ∧ cfg.thin = 1 ∧ ((small1.headD []).length = cfg.ndim) :=
  ⟨{ smallConfig with nrun := 20, checkinterval := 50 }, by decide, rfl, rfl⟩

/-- Non-vacuity of `C62_most_violated`: the run above with `nrun = 1` makes one round and does not stop early. -/
example : ∃ f st, mcmcRun (fun _ => [.fin 1]) smallMoves { smallConfig with nrun := 1 } smallStart = .ok (f, st, false) := by
  have h0 : IsStart { smallConfig with nrun := 1 } smallStart := .inl ⟨[[[0], [0]], [[0], [0]]], none, none, rfl, rfl⟩
  obtain ⟨f, st, early, h⟩ := C97_completes (fun _ => [.fin 1]) (by simp) smallMoves { smallConfig with nrun := 1 } (by decide) (by decide) (by decide) (by decide) (by decide) (by decide)
    smallStart h0
  have h3 := (C66_three _ _ _ _ _ _ _ h0 h).2
  obtain ⟨n, hn, hl, _⟩ := mcmcRun_spec h
  have hn1 : n = 1 := by
    have hrd := roundEven_int 1
    unfold numRun at hn
    rw [if_neg (by decide)] at hn
    have hq : (((1 : Nat) : ℝ) / (((2 : Nat) : ℝ) - 1)) = ((1 : ℤ) : ℝ) := by norm_num
    change Except.ok (roundEven (((1 : Nat) : ℝ) / (((2 : Nat) : ℝ) - 1))).toNat = _ at hn
    rw [hq, hrd] at hn
    cases hn; rfl
  have ht := (stepInv_loop (cfg := { smallConfig with nrun := 1 }) (by decide) n smallStart st early (.start h0) hl).2.1
  have hle : (computedChecks st).length ≤ st.trace.length := List.length_filter_le _ _
  have ht0 : smallStart.trace.length = 0 := rfl
  cases early with
  | true => have := h3 rfl; omega
  | false => exact ⟨f, st, h⟩

end Radvel
