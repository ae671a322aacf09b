import Verif.Lemmas.Crit
import Verif.Props.Pipeline

/-! # C157: the table of convergence criteria -/

namespace Radvel

theorem critTable_mcmc {request : Text} {stat : Option Text} {c : Config} {v1 v2 v3 v4 : Text} {a b g z : CritNum} (hc : loadStatus stat = .ok c) (hs : pickSampler request c = .ok "mcmc".toList)
    (h1 : getOption c "mcmc".toList "minafactor".toList = .ok v1) (h2 : getOption c "mcmc".toList "maxarchange".toList = .ok v2) (h3 : getOption c "mcmc".toList "maxgr".toList = .ok v3)
    (h4 : getOption c "mcmc".toList "mintz".toList = .ok v4) (w1 : Writes v1 a) (w2 : Writes v2 b) (w3 : Writes v3 g) (w4 : Writes v4 z) :
    ∃ l1 l2 l3 l4, critTable request stat = .ok [l1, l2, l3, l4] ∧ CritLine "minAfactor" a l1 ∧ CritLine "maxArchange" b l2 ∧ CritLine "maxGR" g l3 ∧ CritLine "minTz" z l4 := by
  obtain ⟨l1, e1, p1⟩ := cell_line (name := "minAfactor") w1
  obtain ⟨l2, e2, p2⟩ := cell_line (name := "maxArchange") w2
  obtain ⟨l3, e3, p3⟩ := cell_line (name := "maxGR") w3
  obtain ⟨l4, e4, p4⟩ := cell_line (name := "minTz") w4
  refine ⟨l1, l2, l3, l4, ?_, p1, p2, p3, p4⟩
  unfold critTable critValues critNames
  simp only [hc, hs, h1, h2, h3, h4, bind, Except.bind, if_true, List.zip_cons_cons, List.zip_nil_left, List.mapM_cons, List.mapM_nil, e1, e2, e3, e4, pure, Except.pure]

/-- C157: after MCMC has completed, whatever other commands and failing MCMC runs follow and whatever happens to the output files, the table of convergence criteria for the MCMC samples has one row for each
of the four criteria, in this order, showing under its name the number that the sampler ended with, to three decimal places; the table can be made unless the status has a `run` entry of the nested
sampler that is not a truth value. -/
theorem C157_table {pre : Text} (hp : PlainPrefix pre) {edits : Prop} {w0 : World} (hr : Reachable pre edits w0) {num : McmcNumbers} (hn : num.Plain) {o : Oracle} {start : Option Source} {w1 : World}
    (h : mcmcCmd pre num o w0 = (.ok start, w1)) {w2 : World} (ha : AfterMcmc pre w1 w2) {minA maxA maxG minT : CritNum}
    (hA : Writes num.minafactor minA) (hR : Writes num.maxarchange maxA) (hG : Writes num.maxgr maxG) (hT : Writes num.mintz minT) (request : Text) :
    (∀ rows, critTable request w2.stat = .ok rows → request ≠ "ns".toList →
      ∃ l1 l2 l3 l4, rows = [l1, l2, l3, l4] ∧ CritLine "minAfactor" minA l1 ∧ CritLine "maxArchange" maxA l2 ∧ CritLine "maxGR" maxG l3 ∧ CritLine "minTz" minT l4) ∧
    (request = "mcmc".toList ∨ request = "auto".toList → (∀ c, loadStatus w2.stat = .ok c → Ran c "ns".toList ∨ NotRan c "ns".toList) → ∃ rows, critTable request w2.stat = .ok rows) := by
  obtain ⟨c0, g1, g2, _⟩ := good_of_reachable hp hr
  obtain ⟨c1, r1, v1⟩ := mcmc_saved hp hn o ⟨g1, g2⟩ h
  obtain ⟨c2, r2, v2⟩ := afterMcmc_value hp r1 ha
  have hval : ∀ k v, savedValue (mcmcVars pre num) k = some v → lower k = k → getOption c2 "mcmc".toList k = .ok v := fun k v hv hl => getOption_value ((v2 k).trans (v1 k v hv)) hl
  have q1 := hval "minafactor".toList _ rfl (by decide)
  have q2 := hval "maxarchange".toList _ rfl (by decide)
  have q3 := hval "maxgr".toList _ rfl (by decide)
  have q4 := hval "mintz".toList _ rfl (by decide)
  have hran : Ran c2 "mcmc".toList := by
    have := (v2 "run".toList).trans (v1 "run".toList _ rfl)
    unfold Config.value at this
    rcases hd : c2.get? "mcmc".toList with _ | d
    · rw [hd] at this; cases this
    · rw [hd] at this
      exact ⟨d, trueText, hd, this, by decide⟩
  have table := fun hs => critTable_mcmc (request := request) r2.1 hs q1 q2 q3 q4 hA hR hG hT
  refine ⟨fun rows hrows hne => ?_, fun hreq hns => ?_⟩
  · rcases hs : pickSampler request c2 with e | s
    · unfold critTable at hrows
      simp only [r2.1, hs, bind, Except.bind] at hrows
      cases hrows
    · have hm : s = "mcmc".toList := by
        obtain ⟨_, h2, h3⟩ := C82_sound request c2 s hs
        rcases h2 with h2 | h2
        · exact h3.resolve_right fun h => hne (h2.trans h)
        · subst h2
          unfold pickSampler at hs
          rw [hasRun_true.2 hran] at hs
          rcases hn : hasRun c2 "ns".toList with e | bn
          · rw [hn] at hs; cases hs
          · rw [hn] at hs; cases hs; rfl
      subst hm
      obtain ⟨l1, l2, l3, l4, e, p⟩ := table hs
      exact ⟨l1, l2, l3, l4, Except.ok.inj (hrows.symm.trans e), p⟩
  · have hs : pickSampler request c2 = .ok "mcmc".toList := by
      unfold pickSampler
      rw [hasRun_true.2 hran]
      rcases hns c2 r2.1 with h | h
      · rw [hasRun_true.2 h]
        rcases hreq with rfl | rfl <;> rfl
      · rw [hasRun_false.2 h]
        rcases hreq with rfl | rfl <;> rfl
    obtain ⟨l1, l2, l3, l4, e, _⟩ := table hs
    exact ⟨_, e⟩

/-- C157: the table for the samples of the nested sampler shows no number under any name. -/
theorem C157_ns (stat : Option Text) (rows : List Text) (h : critTable "ns".toList stat = .ok rows) :
    rows = ["minAfactor & None".toList, "maxArchange & None".toList, "maxGR & None".toList, "minTz & None".toList] := by
  unfold critTable at h
  rcases hc : loadStatus stat with e | c
  · rw [hc] at h; cases h
  simp only [hc, bind, Except.bind] at h
  rcases hs : pickSampler "ns".toList c with e | s
  · rw [hs] at h; cases h
  simp only [hs] at h
  obtain ⟨_, h2, _⟩ := C82_sound _ c s hs
  have hsn : s = "ns".toList := by
    rcases h2 with h2 | h2
    · exact h2.symm
    · exact absurd h2 (by decide)
  subst hsn
  cases h
  rfl

/-- A run with numbers of all kinds. -/
def critNumbers : McmcNumbers :=
  { nwalkers := "50".toList, nensembles := "8".toList, maxsteps := "4000000".toList, nsteps := "20000".toList, nburn := "1000".toList, minafactor := "40.1235".toList, maxarchange := "0.0299999".toList,
    mintz := "-1.0".toList, maxgr := "inf".toList }

example : critNumbers.Plain := ⟨⟨by decide, by decide⟩, ⟨by decide, by decide⟩, ⟨by decide, by decide⟩, ⟨by decide, by decide⟩, ⟨by decide, by decide⟩, ⟨by decide, by decide⟩, ⟨by decide, by decide⟩, ⟨by decide, by decide⟩, ⟨by decide, by decide⟩⟩

example : succeeds (mcmcCmd somePrefix critNumbers noFailure) (runCommands [.fit] emptyWorld) = true := by decide +kernel

example : Writes critNumbers.minafactor (.num false (401235 * (10 : ℚ) ^ (-4 : Int))) :=
  .num _ false 401235 (-4) ⟨[], "40.1235".toList, [], -4, 0, .none, by
    have := MantissaText.point "40".toList "1235".toList (by unfold IsDigit; decide) (by unfold IsDigit; decide) (by decide)
    simpa [numeral, Nat.ofDigits] using this, .none, rfl, rfl⟩

example : critTable "auto".toList (runCommands [.fit, .mcmc critNumbers, .ns [], .derive "auto".toList true, .ic "[]".toList] emptyWorld).stat =
    .ok ["minAfactor & $ 40.124$".toList, "maxArchange & $  0.030$".toList, "maxGR & $    inf$".toList, "minTz & $ -1.000$".toList] := by decide +kernel

example : critTable "ns".toList (runCommands [.fit, .mcmc critNumbers, .ns []] emptyWorld).stat =
    .ok ["minAfactor & None".toList, "maxArchange & None".toList, "maxGR & None".toList, "minTz & None".toList] := by decide +kernel

end Radvel
