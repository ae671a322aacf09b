import Verif.Lemmas.ChainTable
import Verif.Props.McmcWitness

/-!
# Property theorems C63 and C98: the table of samples and the trend plot
-/

namespace Radvel
open Classical

/-- What a run that made at least one round returns. -/
theorem run_lastCheck {itime : List Ens → List Fl} {lp : List ℝ → Fl} {moves : Nat → Nat → Pos → Move} {cfg : McConfig} (hm : HonestMoves cfg.ndim cfg.nwalkers lp moves)
    (hci : 2 ≤ cfg.checkinterval) (hrun : cfg.checkinterval ≤ 2 * cfg.nrun) {p0 : List Pos} (hp : p0.length = cfg.ensembles) {file : Option H5}
    {prev : Option (List Ens × List (List (List Fl)))} {f : ChainFrame} {st : McState} {early : Bool}
    (h : mcmcRun itime moves cfg (startFresh p0 cfg.nwalkers file prev) = .ok (f, st, early)) :
    TableInv cfg lp moves st ∧ (∃ c, LastCheck cfg lp moves st c) ∧ 0 < cfg.thin ∧
    f.cols = (buildFrame (st.checked.map (chainT cfg.ndim cfg.nwalkers)) (st.checked.map (logProbT cfg.nwalkers))).cols.map (everyNth cfg.thin) ∧
    f.ln = everyNth cfg.thin (buildFrame (st.checked.map (chainT cfg.ndim cfg.nwalkers)) (st.checked.map (logProbT cfg.nwalkers))).ln := by
  obtain ⟨n, hn, hl, hf⟩ := mcmcRun_spec h
  obtain ⟨m, hm'⟩ := numRun_pos hci hrun
  rw [hm'] at hn; cases hn
  obtain ⟨h1, c, h2⟩ := tableInv_loop hm (by omega) m _ st early (.start hp) hl
  unfold finish at hf
  rw [h2.table] at hf
  simp only at hf
  split at hf
  · cases hf
  · split at hf
    · cases hf
    · cases hf
      exact ⟨h1, ⟨c, h2⟩, by omega, rfl, rfl⟩

/-- C63, the table: without thinning, the table of a new run has one row for every walker `w`, ensemble `e` and stored step `k`; that row, number `w·(E·ns) + e·ns + k`, holds the parameters and
the log-probability of that sample, and every row number is used exactly once. -/
theorem C63_rows (itime : List Ens → List Fl) (lp : List ℝ → Fl) (moves : Nat → Nat → Pos → Move) (cfg : McConfig) (hnd : 0 < cfg.ndim) (hens : 0 < cfg.ensembles)
    (hm : HonestMoves cfg.ndim cfg.nwalkers lp moves) (hci : 2 ≤ cfg.checkinterval) (hrun : cfg.checkinterval ≤ 2 * cfg.nrun) (hthin : cfg.thin = 1) (p0 : List Pos)
    (hp : p0.length = cfg.ensembles) (file : Option H5) (prev : Option (List Ens × List (List (List Fl)))) (f : ChainFrame) (st : McState) (early : Bool)
    (h : mcmcRun itime moves cfg (startFresh p0 cfg.nwalkers file prev) = .ok (f, st, early)) :
    ∃ ns, 0 < ns ∧ st.checked.length = cfg.ensembles ∧ (∀ s ∈ st.checked, s.chain.length = ns ∧ ∀ p ∈ s.chain, p.length = cfg.nwalkers ∧ ∀ row ∈ p, row.length = cfg.ndim) ∧
      f.cols.length = cfg.ndim ∧ f.ln.length = cfg.nwalkers * (cfg.ensembles * ns) ∧ (∀ col ∈ f.cols, col.length = cfg.nwalkers * (cfg.ensembles * ns)) ∧
      (∀ (e w k d : Nat) s p row x, st.checked[e]? = some s → s.chain[k]? = some p → p[w]? = some row → row[d]? = some x →
        ∃ col, f.cols[d]? = some col ∧ col[w * (cfg.ensembles * ns) + (e * ns + k)]? = some x ∧ f.ln[w * (cfg.ensembles * ns) + (e * ns + k)]? = some (lp row)) ∧
      (∀ i, i < cfg.nwalkers * (cfg.ensembles * ns) → ∃! t : Nat × Nat × Nat, t.1 < cfg.nwalkers ∧ t.2.1 < cfg.ensembles ∧ t.2.2 < ns ∧
        i = t.1 * (cfg.ensembles * ns) + (t.2.1 * ns + t.2.2)) := by
  obtain ⟨_, ⟨c, hc⟩, _, hcols, hln⟩ := run_lastCheck hm hci hrun hp h
  have hone : ∀ {α : Type} (l : List α), everyNth 1 l = l := by
    intro α l
    apply List.ext_getElem?
    intro i
    rw [(everyNth_spec 1 one_pos l).2 i, Nat.mul_one]
  rw [hthin] at hcols hln
  rw [hone] at hln
  have hcols' : f.cols = (buildFrame (st.checked.map (chainT cfg.ndim cfg.nwalkers)) (st.checked.map (logProbT cfg.nwalkers))).cols := by
    rw [hcols]
    have : ∀ l : List (List ℝ), l.map (everyNth 1) = l := by
      intro l; induction l with
      | nil => rfl
      | cons a l ih => rw [List.map_cons, ih, hone]
    exact this _
  have hne : st.checked ≠ [] := by intro h0; have := hc.len; rw [h0] at this; simp at this; omega
  set ns := phaseRounds c.post st * cfg.checkinterval with hns
  have hnspos : 0 < ns := by
    have : 0 < phaseRounds c.post st := by
      unfold phaseRounds
      rw [List.length_pos_iff]
      intro h0
      rw [List.filter_eq_nil_iff] at h0
      exact h0 c (List.mem_of_getLast? hc.last) (by simp)
    exact Nat.mul_pos this (by omega)
  obtain ⟨g1, g2, g3, g4⟩ := buildFrame_layout (cfg := cfg) (lp := lp) (moves := moves) st.checked hne ns hnd (fun e s hs => (hc.checked e s hs).1)
  rw [hc.len] at g3 g4
  refine ⟨ns, hnspos, hc.len, ?_, by rw [hcols']; exact g2, by rw [hln]; exact g3, ?_, ?_, ?_⟩
  · intro s hs
    obtain ⟨e, he, rfl⟩ := List.getElem_of_mem hs
    have := (hc.checked e _ (List.getElem?_eq_getElem he)).1
    exact ⟨this.len, fun p hp => ⟨this.walkers p hp, this.dims p hp⟩⟩
  · intro col hcol
    rw [hcols'] at hcol
    obtain ⟨d, hd, rfl⟩ := List.getElem_of_mem hcol
    obtain ⟨col', k1, k2, _⟩ := g1 d (by rw [← g2]; exact hd)
    rw [List.getElem?_eq_getElem hd] at k1
    cases k1
    rw [k2, hc.len]
  · intro e w k d s p row x h1 h2 h3 h4
    have hst := (hc.checked e s h1).1
    have hd : d < cfg.ndim := by
      rw [← hst.dims p (List.mem_of_getElem? h2) row (List.mem_of_getElem? h3)]
      exact (List.getElem?_eq_some_iff.1 h4).1
    obtain ⟨col, k1, _, k3⟩ := g1 d hd
    refine ⟨col, by rw [hcols']; exact k1, ?_, by rw [hln]; exact g4 e w k s p row h1 h2 h3⟩
    have := k3 e w k s p row x h1 h2 h3 h4
    rwa [hc.len] at this
  · intro i hi
    have hE : 0 < cfg.ensembles * ns := Nat.mul_pos hens hnspos
    refine ⟨(i / (cfg.ensembles * ns), i % (cfg.ensembles * ns) / ns, i % (cfg.ensembles * ns) % ns), ⟨?_, ?_, ?_, ?_⟩, ?_⟩
    · exact Nat.div_lt_of_lt_mul (by rw [Nat.mul_comm]; exact hi)
    · exact Nat.div_lt_of_lt_mul (by rw [Nat.mul_comm ns]; exact Nat.mod_lt i hE)
    · exact Nat.mod_lt _ hnspos
    · show i = _
      rw [Nat.div_add_mod', Nat.div_add_mod']
    · rintro ⟨w, e, k⟩ ⟨h1, h2, h3, h4⟩
      simp only at h1 h2 h3 h4
      have hlt : e * ns + k < cfg.ensembles * ns := by
        calc e * ns + k < e * ns + ns := by omega
          _ = (e + 1) * ns := by ring
          _ ≤ cfg.ensembles * ns := Nat.mul_le_mul_right _ h2
      have e1 : i / (cfg.ensembles * ns) = w := by
        rw [h4, Nat.mul_comm w, Nat.mul_add_div hE, Nat.div_eq_of_lt hlt, add_zero]
      have e2 : i % (cfg.ensembles * ns) = e * ns + k := by
        rw [h4, Nat.mul_comm w, Nat.mul_add_mod, Nat.mod_eq_of_lt hlt]
      rw [e1, e2, Nat.mul_comm e, Nat.mul_add_div hnspos, Nat.div_eq_of_lt h3, add_zero, Nat.mul_add_mod, Nat.mod_eq_of_lt h3]

/-- C63, the trend plot (missing: thinning factors that do not divide the number of stored steps; false, next theorem): for every parameter `d` the plot's array `wchain[w][e]` is the sequence of walker
`w` in ensemble `e`, one sample every `thin` steps. -/
theorem C63_trend_partial (itime : List Ens → List Fl) (lp : List ℝ → Fl) (moves : Nat → Nat → Pos → Move) (cfg : McConfig) (hnd : 0 < cfg.ndim) (hens : 0 < cfg.ensembles) (hnw : 0 < cfg.nwalkers)
    (hm : HonestMoves cfg.ndim cfg.nwalkers lp moves) (hci : 2 ≤ cfg.checkinterval) (hrun : cfg.checkinterval ≤ 2 * cfg.nrun) (p0 : List Pos)
    (hp : p0.length = cfg.ensembles) (file : Option H5) (prev : Option (List Ens × List (List (List Fl)))) (f : ChainFrame) (st : McState) (early : Bool)
    (h : mcmcRun itime moves cfg (startFresh p0 cfg.nwalkers file prev) = .ok (f, st, early)) (hdvd : ∀ s ∈ st.checked, cfg.thin ∣ s.chain.length) (d : Nat) (hd : d < cfg.ndim) :
    ∃ col wchain, f.cols[d]? = some col ∧ trendReshape cfg.nwalkers cfg.ensembles col = .ok wchain ∧
      ∀ (w e : Nat) s, w < cfg.nwalkers → st.checked[e]? = some s → ∃ rows ser, wchain[w]? = some rows ∧ rows[e]? = some ser ∧ ser.length * cfg.thin = s.chain.length ∧
        ∀ (k : Nat) p row x, s.chain[k * cfg.thin]? = some p → p[w]? = some row → row[d]? = some x → ser[k]? = some x := by
  obtain ⟨_, ⟨c, hc⟩, hthin, hcols, _⟩ := run_lastCheck hm hci hrun hp h
  have hne : st.checked ≠ [] := by intro h0; have := hc.len; rw [h0] at this; simp at this; omega
  set ns := phaseRounds c.post st * cfg.checkinterval with hns
  obtain ⟨g1, g2, _, _⟩ := buildFrame_layout (cfg := cfg) (lp := lp) (moves := moves) st.checked hne ns hnd (fun e s hs => (hc.checked e s hs).1)
  obtain ⟨col, k1, k2, k3⟩ := g1 d hd
  rw [hc.len] at k2 k3
  have hdv : cfg.thin ∣ ns := by
    obtain ⟨s, hs⟩ := List.exists_mem_of_ne_nil _ hne
    obtain ⟨e, he, rfl⟩ := List.getElem_of_mem hs
    have hl := (hc.checked e _ (List.getElem?_eq_getElem he)).1.len
    rw [hns, ← hl]
    exact hdvd _ hs
  obtain ⟨q, hq⟩ := hdv
  obtain ⟨n1, n2⟩ := everyNth_spec cfg.thin hthin col
  have hlen : (everyNth cfg.thin col).length = cfg.nwalkers * cfg.ensembles * q := by
    rw [n1, k2, hq, show cfg.nwalkers * (cfg.ensembles * (cfg.thin * q)) + cfg.thin - 1 = (cfg.thin - 1) + cfg.thin * (cfg.nwalkers * cfg.ensembles * q) by
      rw [show cfg.nwalkers * (cfg.ensembles * (cfg.thin * q)) = cfg.thin * (cfg.nwalkers * cfg.ensembles * q) by ring]; omega,
      Nat.add_mul_div_left _ _ hthin, Nat.div_eq_of_lt (by omega), zero_add]
  have hpos : 0 < cfg.nwalkers * cfg.ensembles := Nat.mul_pos hnw hens
  refine ⟨everyNth cfg.thin col, (List.range cfg.nwalkers).map fun w => (List.range cfg.ensembles).map fun e => ((everyNth cfg.thin col).drop ((w * cfg.ensembles + e) * q)).take q, ?_, ?_, ?_⟩
  · rw [hcols, List.getElem?_map, k1]; rfl
  · unfold trendReshape
    rw [if_neg (by omega), if_neg (by rw [hlen, Nat.mul_mod_right]; simp)]
    simp only
    rw [hlen, Nat.mul_div_cancel_left _ hpos]
  · intro w e s hw hs
    have he : e < cfg.ensembles := by rw [← hc.len]; exact (List.getElem?_eq_some_iff.1 hs).1
    have hst := (hc.checked e s hs).1
    have hle : (w * cfg.ensembles + e) * q + q ≤ cfg.nwalkers * cfg.ensembles * q := by
      rw [show (w * cfg.ensembles + e) * q + q = (w * cfg.ensembles + e + 1) * q by ring]
      apply Nat.mul_le_mul_right
      calc w * cfg.ensembles + e + 1 ≤ w * cfg.ensembles + cfg.ensembles := by omega
        _ = (w + 1) * cfg.ensembles := by ring
        _ ≤ cfg.nwalkers * cfg.ensembles := Nat.mul_le_mul_right _ hw
    refine ⟨_, _, by rw [List.getElem?_map, List.getElem?_range hw]; rfl, by rw [List.getElem?_map, List.getElem?_range he]; rfl, ?_, ?_⟩
    · rw [List.length_take, List.length_drop, hlen, hst.len, show min q (cfg.nwalkers * cfg.ensembles * q - (w * cfg.ensembles + e) * q) = q by omega, ← hns, hq, Nat.mul_comm]
    · intro k p row x h2 h3 h4
      have hk : k < q := by
        have := (List.getElem?_eq_some_iff.1 h2).1
        rw [hst.len, ← hns, hq, Nat.mul_comm cfg.thin q] at this
        exact lt_of_mul_lt_mul_right this (Nat.zero_le _)
      rw [List.getElem?_take_of_lt hk, List.getElem?_drop, n2]
      have := k3 e w (k * cfg.thin) s p row x hs h2 h3 h4
      rw [← this, hq]
      congr 1
      ring

/-- Two walkers at `n` and `n + 1` after move `n`. -/
def rampMoves (_ n : Nat) (_ : Pos) : Move := ⟨[[(n : ℝ)], [(n : ℝ) + 1]], [.fin 0, .fin 0], [true, true]⟩

/-- C63, the trend plot is false with thinning: one ensemble of two walkers, three stored steps and `thin = 2` give a table that the trend plot cannot reshape. -/
theorem C63_trend_violated : ∃ (moves : Nat → Nat → Pos → Move) (cfg : McConfig) (f : ChainFrame) (st : McState) (early : Bool),
    HonestMoves cfg.ndim cfg.nwalkers (fun _ => .fin 0) moves ∧ mcmcRun (fun _ => [.fin 1]) moves cfg (startFresh [[[0], [0]]] cfg.nwalkers none none) = .ok (f, st, early) ∧
    (∀ s ∈ st.checked, s.chain.length = 3) ∧ ∃ col, f.cols[0]? = some col ∧ trendReshape cfg.nwalkers cfg.ensembles col = .error .valueError := by
  let cfg : McConfig := { smallConfig with ensembles := 1, checkinterval := 3, nrun := 2, thin := 2 }
  have hm : HonestMoves cfg.ndim cfg.nwalkers (fun _ => .fin 0) rampMoves :=
    ⟨fun _ _ _ => rfl, by intro i n p row hrow; simp [rampMoves] at hrow; rcases hrow with rfl | rfl <;> rfl, fun _ _ _ => rfl⟩
  have h0 : IsStart cfg (startFresh [[[0], [0]]] cfg.nwalkers none none) := .inl ⟨_, _, _, rfl, rfl⟩
  obtain ⟨f, st, early, h⟩ := C97_completes (fun _ => [.fin 1]) (by simp) rampMoves cfg (by decide) (by decide) (by decide)
    (by decide) (by decide) (by decide) _ h0
  obtain ⟨hI, ⟨c, hc⟩, hthin, hcols, _⟩ := run_lastCheck hm (by decide) (by decide) (p0 := [[[0], [0]]]) rfl h
  have htr : st.trace.length = 1 := by
    obtain ⟨n, hn, hl, _⟩ := mcmcRun_spec h
    have hn1 : n = 1 := by
      unfold numRun at hn
      rw [if_neg (by decide)] at hn
      change Except.ok (roundEven (((2 : Nat) : ℝ) / (((3 : Nat) : ℝ) - 1))).toNat = _ at hn
      rw [show (((2 : Nat) : ℝ) / (((3 : Nat) : ℝ) - 1)) = ((1 : ℤ) : ℝ) by norm_num, roundEven_int] at hn
      cases hn; rfl
    have h1 := (stepInv_loop (cfg := cfg) (by decide) n _ st early (.start h0) hl).2.1
    have h2 : (startFresh [[[0], [0]]] cfg.nwalkers none none : McState).trace.length = 0 := rfl
    have h3 : 0 < st.trace.length := by
      rw [List.length_pos_iff]; intro h; have := hc.last; rw [h] at this; simp at this
    omega
  have hph : phaseRounds c.post st = 1 := by
    obtain ⟨x, hx⟩ := List.length_eq_one_iff.1 htr
    have : x = c := by have := hc.last; rw [hx] at this; simpa using this
    unfold phaseRounds
    rw [hx, this]
    simp
  have hst : ∀ e s, st.checked[e]? = some s → Stored cfg.ndim cfg.nwalkers (fun _ => .fin 0) rampMoves 3 e s := by
    intro e s hs
    have := (hc.checked e s hs).1
    rw [hph] at this
    exact this
  have hne : st.checked ≠ [] := by intro h0; have := hc.len; rw [h0] at this; cases this
  obtain ⟨g1, _⟩ := buildFrame_layout (cfg := cfg) st.checked hne 3 (by decide) hst
  obtain ⟨col, k1, k2, _⟩ := g1 0 (by decide)
  refine ⟨rampMoves, cfg, f, st, early, hm, h, ?_, everyNth 2 col, ?_, ?_⟩
  · intro s hs
    obtain ⟨e, he, rfl⟩ := List.getElem_of_mem hs
    exact (hst e _ (List.getElem?_eq_getElem he)).len
  · rw [hcols, List.getElem?_map, k1]; rfl
  · unfold trendReshape
    have : (everyNth 2 col).length = 3 := by
      rw [(everyNth_spec 2 (by decide) col).1, k2, hc.len]; simp [cfg, smallConfig]
    rw [this]
    simp [cfg, smallConfig]

/-! ## C98 -/

/-- C98 (missing: the case that burn-in ends in the last round; false, next theorem): if the last round was made after burn-in, the table holds, for each walker and ensemble, exactly the samples of the
rounds after burn-in: sample `k` of ensemble `e` is the result of that ensemble's move number `b·checkinterval + k`, where `b` is the number of burn-in rounds. -/
theorem C98_post_partial (itime : List Ens → List Fl) (lp : List ℝ → Fl) (moves : Nat → Nat → Pos → Move) (cfg : McConfig)
    (hm : HonestMoves cfg.ndim cfg.nwalkers lp moves) (hci : 2 ≤ cfg.checkinterval) (hrun : cfg.checkinterval ≤ 2 * cfg.nrun) (p0 : List Pos)
    (hp : p0.length = cfg.ensembles) (file : Option H5) (prev : Option (List Ens × List (List (List Fl)))) (f : ChainFrame) (st : McState) (early : Bool)
    (h : mcmcRun itime moves cfg (startFresh p0 cfg.nwalkers file prev) = .ok (f, st, early)) (c : Check) (hlast : st.trace.getLast? = some c) (hpost : c.post = true) :
    st.table = some (st.checked.map (chainT cfg.ndim cfg.nwalkers), st.checked.map (logProbT cfg.nwalkers)) ∧
    ∀ (e : Nat) s, st.checked[e]? = some s → s.chain.length = (st.trace.filter fun x => x.post).length * cfg.checkinterval ∧
      ∀ (k : Nat) p, s.chain[k]? = some p → ∃ q, p = (moves e ((st.trace.filter fun x => !x.post).length * cfg.checkinterval + k) q).pos := by
  obtain ⟨hI, ⟨c', hc⟩, _, _, _⟩ := run_lastCheck hm hci hrun hp h
  have hcc : c' = c := by have := hc.last; rw [hlast] at this; cases this; rfl
  subst hcc
  have hph : phaseRounds c'.post st = (st.trace.filter fun x => x.post).length := by
    unfold phaseRounds; rw [hpost]
    congr 1
    apply List.filter_congr
    intro x _
    cases x.post <;> rfl
  have hsum : (st.trace.filter fun x => x.post).length + (st.trace.filter fun x => !x.post).length = st.trace.length :=
    (List.length_eq_length_filter_add (l := st.trace) (fun x => x.post)).symm
  refine ⟨hc.table, ?_⟩
  intro e s hs
  obtain ⟨g1, g2⟩ := hc.checked e s hs
  rw [hph] at g1
  refine ⟨g1.len, ?_⟩
  intro k p hk
  obtain ⟨q, hq⟩ := g1.from_moves k p hk
  refine ⟨q, ?_⟩
  rw [hq, g2, ← hsum, Nat.add_mul, Nat.add_sub_cancel_left]

/-- One round, after which burn-in ends. -/
noncomputable def burnConfig : McConfig := { smallConfig with nrun := 1, burnGR := .fin 2 }

theorem burn_last (file : Option H5) : ∃ (f : ChainFrame) (st : McState),
    mcmcRun (fun _ => [.fin 1]) smallMoves burnConfig (startFresh [[[0], [0]], [[0], [0]]] 2 file none) = .ok (f, st, false) ∧ st.burnComplete = true ∧ (∀ s ∈ st.samplers, s.chain = []) ∧
    (∀ c ∈ st.trace, c.post = false) ∧ f.cols = [[-1, -1, 1, 1, 1, 1, 3, 3]] := by
  let smallStart := startFresh [[[0], [0]], [[0], [0]]] 2 file none
  let cfg := burnConfig
  have h0 : IsStart cfg smallStart := .inl ⟨[[[0], [0]], [[0], [0]]], file, none, rfl, rfl⟩
  have hg0 : Going smallStart := ⟨by simp [smallStart, startFresh], by intro l hl; cases hl⟩
  obtain ⟨st1, hr1⟩ := mcmcRound_total (fun _ => [.fin 1]) smallMoves cfg smallStart (by decide) (by decide) (by decide) (by decide) (by decide) hg0.ne (by simp) hg0.oac
  obtain ⟨c1, hc1, e1⟩ := mcmcRound_spec hr1
  obtain ⟨fr1, htab, _, _, _, _⟩ := convergenceCheck_spec hc1
  obtain ⟨o1, g1, m1, a1, a2, a3, a4, a5, a6, a7, a8⟩ := convergenceCheck_computed (cfg := cfg) le_rfl hc1
  have hs1 : (afterBlocks cfg smallMoves smallStart).samplers =
      [⟨[[[-1], [1]], [[-1], [1]]], [[.fin 0, .fin 0], [.fin 0, .fin 0]], [2, 2], 2⟩, ⟨[[[1], [3]], [[1], [3]]], [[.fin 0, .fin 0], [.fin 0, .fin 0]], [2, 2], 2⟩] := by
    simp [cfg, afterBlocks, smallStart, startFresh, blocks, block, Sampler.advance, Sampler.store, smallMoves, burnConfig, smallConfig, startPos]
  have hch1 : (afterBlocks cfg smallMoves smallStart).samplers.map (chainT cfg.ndim cfg.nwalkers) = small1 := by
    rw [hs1]; rfl
  rw [hch1] at a1 htab
  have hnm : o1.ismixed = false := C66_first _ _ _ _ a1
  have hr : Rect small1 1 2 2 := by
    intro e he
    simp only [small1, List.mem_cons, List.not_mem_nil, or_false] at he
    rcases he with rfl | rfl <;> simp
  have fa := convFacts hr a1
  have hw : within (parChains small1 0) = 1 := by norm_num [within, pvar, mean, parChains, small1]
  have hv : varMeans (parChains small1 0) = 1 := by norm_num [varMeans, pvar, mean, parChains, small1]
  have hgr : o1.gelmanrubin = [.fin (Real.sqrt (7 / 4))] := by
    rw [fa.gr]
    simp only [List.range_one, List.map_cons, List.map_nil, grOf, varEstimate, hw, hv, Fl.quot]
    rw [if_neg one_ne_zero]
    norm_num [Fl.sqrt]
  rw [hgr] at a2
  cases a2
  have hb : c1.burnComplete = false ∧ (c1.maxgr.leq cfg.burnGR ∨ cfg.burnAfactor.leq c1.minafactor) := by
    refine ⟨fr1.burnComplete, .inl ?_⟩
    rw [a4]
    show Real.sqrt (7 / 4) ≤ 2
    exact Real.sqrt_le_iff.2 ⟨by norm_num, by norm_num⟩
  have e1' : st1 = { c1 with file := c1.file.map (saveAll c1 0 c1.samplers), inits := List.zipWith (fun s i => s.chain.getLastD i) c1.samplers c1.inits,
                             samplers := c1.samplers.map Sampler.reset, nburn := c1.ncomplete, burnComplete := true } := by
    rw [e1]; unfold burnStep; rw [if_pos hb]
  have x1 : st1.mixcount = 0 := by rw [e1']; show c1.mixcount = _; rw [a7, hnm]; rfl
  have hloop : mcmcLoop (fun _ => [.fin 1]) smallMoves cfg 1 smallStart = .ok (st1, false) := by
    unfold mcmcLoop; rw [hr1]; simp only; rw [if_neg (by omega)]; rfl
  have hnum : numRun cfg.nrun cfg.checkinterval = .ok 1 := by
    unfold numRun
    rw [if_neg (by decide)]
    show Except.ok (roundEven (((1 : Nat) : ℝ) / (((2 : Nat) : ℝ) - 1))).toNat = _
    rw [show (((1 : Nat) : ℝ) / (((2 : Nat) : ℝ) - 1)) = ((1 : ℤ) : ℝ) by norm_num, roundEven_int]; rfl
  have hfin : ∃ f, finish cfg st1 = .ok f ∧ f.cols = [[-1, -1, 1, 1, 1, 1, 3, 3]] := by
    unfold finish
    have : st1.table = c1.table := by rw [e1']
    rw [this, htab]
    simp only
    rw [if_neg (by simp [buildFrame, small1, cfg, burnConfig, smallConfig]), if_neg (by decide)]
    refine ⟨_, rfl, ?_⟩
    simp [buildFrame, small1, everyNth, cfg, burnConfig, smallConfig, List.range_succ]
  obtain ⟨f, hf1, hf2⟩ := hfin
  refine ⟨f, st1, ?_, by rw [e1'], ?_, ?_, hf2⟩
  · unfold mcmcRun
    rw [hnum]
    simp only [bind, Except.bind]
    rw [hloop]
    simp only
    rw [hf1]
    rfl
  · intro s hs
    rw [e1'] at hs
    obtain ⟨s', _, rfl⟩ := List.mem_map.1 hs
    rfl
  · intro c hcm
    rw [e1'] at hcm
    have hcm' : c ∈ c1.trace := hcm
    rw [a8, hnm] at hcm'
    simp [afterBlocks, smallStart, startFresh] at hcm'
    rw [hcm']

/-- C98 is false: when burn-in ends in the last round, the table consists of burn-in samples although burn-in is reported as complete. -/
theorem C98_burn_violated : ∃ (moves : Nat → Nat → Pos → Move) (cfg : McConfig) (f : ChainFrame) (st : McState) (early : Bool),
    mcmcRun (fun _ => [.fin 1]) moves cfg smallStart = .ok (f, st, early) ∧ st.burnComplete = true ∧ (∀ s ∈ st.samplers, s.chain = []) ∧
    (∀ c ∈ st.trace, c.post = false) ∧ f.cols = [[-1, -1, 1, 1, 1, 1, 3, 3]] := by
  obtain ⟨f, st, h⟩ := burn_last none
  exact ⟨smallMoves, burnConfig, f, st, false, h⟩

theorem smallMoves_honest : HonestMoves 1 2 (fun _ => .fin 0) smallMoves := by
  refine ⟨?_, ?_, ?_⟩
  · intro i n p; unfold smallMoves; simp only; split
    · rfl
    · split
      · rfl
      · split <;> rfl
  · intro i n p row hrow; unfold smallMoves at hrow; simp only at hrow
    split at hrow
    · simp at hrow; rcases hrow with rfl | rfl <;> rfl
    · split at hrow
      · simp at hrow; rcases hrow with rfl | rfl <;> rfl
      · split at hrow <;> (simp at hrow; rcases hrow with rfl | rfl <;> rfl)
  · intro i n p; unfold smallMoves; simp only; split
    · rfl
    · split
      · rfl
      · split <;> rfl

/-- Non-vacuity of `C63_rows`, `C63_trend_partial` and `C98_post_partial`: honest moves exist, and runs with them complete. -/
example : ∃ moves f st early, HonestMoves smallConfig.ndim smallConfig.nwalkers (fun _ => .fin 0) moves ∧
    mcmcRun (fun _ => [.fin 1]) moves smallConfig (startFresh [[[0], [0]], [[0], [0]]] smallConfig.nwalkers none none) = .ok (f, st, early) := by
  obtain ⟨f, st, early, h⟩ := C97_completes (fun _ => [.fin 1]) (by simp) smallMoves smallConfig (by decide) (by decide) (by decide) (by decide) (by decide) (by decide) _ smallStart_isStart
  exact ⟨smallMoves, f, st, early, smallMoves_honest, h⟩

end Radvel
