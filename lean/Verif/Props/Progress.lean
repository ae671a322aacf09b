import Verif.Lemmas.Progress

/-! # C158: the progress display -/

namespace Radvel

/-- C158: as long as no more steps are counted than were asked for, the line shows how much is done: a bar of fixed width filled in proportion, the counts, and the percentage. (In full the line would
do so throughout every run: the count can exceed the total, see below.) -/
theorem C158_line_partial (done total : Nat) (ht : 0 < total) (h : done ≤ total) : ∃ line, progressLine done total = .ok line ∧ ShowsProgress done total line := by
  unfold progressLine progressBar
  simp only [if_neg (show ¬ total = 0 by omega)]
  have hf : halfEven (50 * done) total ≤ 50 := halfEven_le ht (by nlinarith)
  have hd := fun k => digitChar_val (k % 10) (Nat.mod_lt _ (by decide))
  refine ⟨_, rfl, halfEven (50 * done) total, digits done, digits total, digits (halfEven (1000 * done) total / 10), Nat.digitChar (halfEven (1000 * done) total % 10), ?_, hf, ?_, digits_digits _,
    numeral_digits _, digits_digits _, numeral_digits _, digits_digits _, (hd _).1, ?_⟩
  · have hp : percentText done total = digits (halfEven (1000 * done) total / 10) ++ ['.', Nat.digitChar (halfEven (1000 * done) total % 10)] := by
      unfold percentText padLeft
      have := List.length_pos_of_ne_nil (digits_ne_nil (halfEven (1000 * done) total / 10))
      simp only [List.length_append, List.length_singleton]
      rw [show 3 - ((digits (halfEven (1000 * done) total / 10)).length + 1 + 1) = 0 by omega]
      simp
    have hb : "] ".toList = [']'] ++ [' '] := rfl
    rw [hp, hb]
    simp only [List.append_assoc]
  · have := halfEven_dist (50 * done) total ht
    push_cast at this
    exact this
  · have h1 := halfEven_dist (1000 * done) total ht
    rw [numeral_append, numeral_digits, numeral_singleton, (hd _).2, List.length_singleton, pow_one, show halfEven (1000 * done) total / 10 * 10 + halfEven (1000 * done) total % 10 = halfEven (1000 * done) total by omega]
    push_cast at h1
    rw [show (100 * done : ℚ) / total - halfEven (1000 * done) total / 10 = (1000 * done / total - halfEven (1000 * done) total) / 10 by ring, abs_div]
    norm_num at h1 ⊢
    linarith

example : progressLine 1234 4000 = .ok "[===============                                   ] 1234/4000 (30.8%) steps complete; ".toList := by decide +kernel

/-- C158: more steps never show a shorter bar. -/
theorem C158_mono (done done' total : Nat) (h : done ≤ done') (bar bar' : Text) (hb : progressBar done total = .ok bar) (hb' : progressBar done' total = .ok bar') :
    bar.count '=' ≤ bar'.count '=' := by
  unfold progressBar at hb hb'
  split_ifs at hb hb' with ht
  cases hb
  cases hb'
  have hc : ∀ n m : Nat, (['['] ++ List.replicate n '=' ++ List.replicate m ' ' ++ [']']).count '=' = n := by
    intro n m
    simp [List.count_append, List.count_replicate]
  rw [hc, hc]
  exact halfEven_mono (by nlinarith)

example : ∃ bar bar', progressBar 10 40 = .ok bar ∧ progressBar 30 40 = .ok bar' ∧ bar.count '=' < bar'.count '=' := ⟨_, _, rfl, rfl, by decide +kernel⟩

/-- C158: what the display of a new run counts after each round: all steps of all walkers of all ensembles so far, including those of burn-in that were discarded. -/
theorem C158_count (itime : List Ens → List Fl) (moves : Nat → Nat → Pos → Move) (cfg : McConfig) (hci : 1 ≤ cfg.checkinterval) (p0 : List Pos) (hp : p0.length = cfg.ensembles) (file : Option H5)
    (prev : Option (List Ens × List (List (List Fl)))) (r : Nat) (hr : 1 ≤ r) (st : McState) (h : Rounds itime moves cfg (startFresh p0 cfg.nwalkers file prev) r st) :
    display cfg st = progressLine (r * cfg.checkinterval * cfg.nwalkers * cfg.ensembles) (cfg.nrun * cfg.nwalkers * cfg.ensembles) := by
  obtain ⟨h1, h2, _⟩ := rounds_known hci h
  unfold display
  congr 1
  rw [h2 hr, h1]
  have h0 : (startFresh p0 cfg.nwalkers file prev).known cfg = 0 := by
    unfold McState.known startFresh
    simp
  have hl : (startFresh p0 cfg.nwalkers file prev).samplers.length = cfg.ensembles := by simp [startFresh, hp]
  rw [h0, hl]
  ring

theorem bar_long {done total : Nat} (ht : 0 < total) (h : 101 * total < 100 * done) : ∃ bar, progressBar done total = .ok bar ∧ 52 < bar.length := by
  unfold progressBar
  simp only [if_neg (show ¬ total = 0 by omega)]
  refine ⟨_, rfl, ?_⟩
  have hd := (abs_le.1 (halfEven_dist (50 * done) total ht)).2
  have htq : (0 : ℚ) < total := by exact_mod_cast ht
  have hq : (101 * total : ℚ) < 100 * done := by exact_mod_cast h
  have hx : (101 / 2 : ℚ) < ((50 * done : Nat) : ℚ) / total := by
    rw [lt_div_iff₀ htq]
    push_cast
    linarith
  have hk : (50 : ℚ) < (halfEven (50 * done) total : ℕ) := by linarith
  have hk' : 50 < halfEven (50 * done) total := by exact_mod_cast hk
  simp only [List.length_append, List.length_replicate, List.length_singleton]
  omega

/-- C158 is false at the end of runs: if the number of steps is `k` times `checkinterval - 1` and all `k` rounds are made, more steps are counted than were asked for (every round makes `checkinterval`);
with a `checkinterval` of at most 100 the bar is longer than its frame. With the default of 50 and 10000 steps the last display says 102%. -/
theorem C158_end_violated (itime : List Ens → List Fl) (moves : Nat → Nat → Pos → Move) (cfg : McConfig) (hci : 2 ≤ cfg.checkinterval) (k : Nat) (hk : 1 ≤ k) (hrun : cfg.nrun = k * (cfg.checkinterval - 1))
    (hw : 0 < cfg.nwalkers * cfg.ensembles) (p0 : List Pos) (hp : p0.length = cfg.ensembles) (file : Option H5) (prev : Option (List Ens × List (List (List Fl)))) (st : McState)
    (h : Rounds itime moves cfg (startFresh p0 cfg.nwalkers file prev) k st) :
    ∃ done total, display cfg st = progressLine done total ∧ total = cfg.nrun * cfg.nwalkers * cfg.ensembles ∧ total < done ∧
      (cfg.checkinterval ≤ 100 → ∃ bar, progressBar done total = .ok bar ∧ 52 < bar.length) := by
  obtain ⟨c, hc⟩ : ∃ c, cfg.checkinterval = c + 2 := ⟨cfg.checkinterval - 2, by omega⟩
  have hcount := C158_count itime moves cfg (by omega) p0 hp file prev k hk st h
  have hkw : 0 < k * (cfg.nwalkers * cfg.ensembles) := Nat.mul_pos hk hw
  have e1 : cfg.nrun * cfg.nwalkers * cfg.ensembles = (c + 1) * (k * (cfg.nwalkers * cfg.ensembles)) := by
    rw [hrun, hc]; simp only [Nat.add_succ_sub_one]; ring
  have e2 : k * cfg.checkinterval * cfg.nwalkers * cfg.ensembles = (c + 2) * (k * (cfg.nwalkers * cfg.ensembles)) := by rw [hc]; ring
  refine ⟨_, _, hcount, rfl, ?_, fun h100 => bar_long ?_ ?_⟩
  · rw [e1, e2]; nlinarith
  · rw [e1]; positivity
  · rw [e1, e2]
    generalize k * (cfg.nwalkers * cfg.ensembles) = m at hkw
    have : c ≤ 98 := by omega
    nlinarith

example : progressLine 10200 10000 = .ok "[===================================================] 10200/10000 (102.0%) steps complete; ".toList := by decide +kernel

/-- C158 is false for a full bar: it is shown before everything is done, for the last hundredth of a run. -/
theorem C158_full_violated (done total : Nat) (h : done < total) (hlate : 99 * total < 100 * done) : progressBar done total = .ok (['['] ++ List.replicate 50 '=' ++ [']']) := by
  have ht : 0 < total := by omega
  have hle : halfEven (50 * done) total ≤ 50 := halfEven_le ht (by nlinarith)
  have hd := (abs_le.1 (halfEven_dist (50 * done) total ht)).2
  have htq : (0 : ℚ) < total := by exact_mod_cast ht
  have hq : (99 * total : ℚ) < 100 * done := by exact_mod_cast hlate
  have hx : (99 / 2 : ℚ) < ((50 * done : Nat) : ℚ) / total := by
    rw [lt_div_iff₀ htq]
    push_cast
    linarith
  have hk : (49 : ℚ) < (halfEven (50 * done) total : ℕ) := by linarith
  have hk' : 49 < halfEven (50 * done) total := by exact_mod_cast hk
  have he : halfEven (50 * done) total = 50 := by omega
  unfold progressBar
  rw [if_neg (by omega)]
  simp only [he]
  rfl

example : (995 : Nat) < 1000 ∧ 99 * 1000 < 100 * 995 := by decide

/-- C158 is false for continued runs: the steps of the saved run are counted, but the total is that of the new run alone. If the saved run had as many steps as are now asked for, the first display
already exceeds the total. -/
theorem C158_continued_violated (itime : List Ens → List Fl) (moves : Nat → Nat → Pos → Move) (cfg : McConfig) (hci : 1 ≤ cfg.checkinterval) (hw : 0 < cfg.nwalkers * cfg.ensembles) (f : H5) (file : Option H5)
    (prev : Option (List Ens × List (List (List Fl)))) (st0 : McState) (h0 : startProceed cfg f file prev = .ok st0) (hs : ∀ s ∈ st0.samplers, cfg.nrun ≤ s.chain.length) (r : Nat) (hr : 1 ≤ r) (st : McState)
    (h : Rounds itime moves cfg st0 r st) : ∃ done total, display cfg st = progressLine done total ∧ total = cfg.nrun * cfg.nwalkers * cfg.ensembles ∧ total < done := by
  obtain ⟨h1, h2, _⟩ := rounds_known hci h
  have hl : st0.samplers.length = cfg.ensembles := (IsStart.facts (.inr ⟨f, file, prev, h0⟩)).2.2.2.1
  refine ⟨_, _, rfl, rfl, ?_⟩
  rw [h2 hr, h1, hl]
  have hsum : ∀ l : List Sampler, (∀ s ∈ l, cfg.nrun ≤ s.chain.length) → l.length * (cfg.nrun * cfg.nwalkers) ≤ (l.map fun s => s.chain.length * cfg.nwalkers).sum := by
    intro l
    induction l with
    | nil => simp
    | cons s l ih =>
      intro hl
      have := ih fun s hs => hl s (by simp [hs])
      have h3 : cfg.nrun * cfg.nwalkers ≤ s.chain.length * cfg.nwalkers := Nat.mul_le_mul_right _ (hl s (by simp))
      simp only [List.length_cons, List.map_cons, List.sum_cons]
      rw [Nat.succ_mul]
      omega
  have h4 := hsum st0.samplers hs
  rw [hl] at h4
  have h5 : 0 < r * (cfg.ensembles * (cfg.checkinterval * cfg.nwalkers)) := by
    have : r * (cfg.ensembles * (cfg.checkinterval * cfg.nwalkers)) = r * cfg.checkinterval * (cfg.nwalkers * cfg.ensembles) := by ring
    rw [this]
    exact Nat.mul_pos (Nat.mul_pos hr hci) hw
  unfold McState.known
  have e : cfg.nrun * cfg.nwalkers * cfg.ensembles = cfg.ensembles * (cfg.nrun * cfg.nwalkers) := by ring
  rw [e]
  omega

/-- A short run of one ensemble. -/
def shortConfig : McConfig :=
  { ndim := 1, nwalkers := 2, nrun := 3, ensembles := 1, checkinterval := 4, th := ⟨.fin 1, .fin 1, .fin 1, .fin 1⟩, burnAfactor := .fin 25, burnGR := .fin 1, minsteps := 100000, minpercent := 100000, thin := 1 }

/-- A walker that does not move. -/
def stay : Nat → Nat → Pos → Move := fun _ _ p => ⟨p, [.fin 0, .fin 0], [true, true]⟩

example (itime : List Ens → List Fl) : ∃ st, Rounds itime stay shortConfig (startFresh [[[0], [1]]] 2 none none) 1 st := by
  obtain ⟨st, h⟩ := round_early itime stay shortConfig (by decide) (startFresh [[[0], [1]]] 2 none none) ⟨[], [], [0, 0], 0⟩ rfl (by decide) (by simp [shortConfig, startFresh]; norm_num) (by simp [shortConfig]; norm_num)
  exact ⟨st, .succ _ _ _ .zero h⟩

/-- A saved run of three steps. -/
def savedRun : H5 :=
  { chain := [(0, [[[0], [1]], [[0], [1]], [[0], [1]]])], logProb := [(0, [[.fin 0, .fin 0], [.fin 0, .fin 0], [.fin 0, .fin 0]])], accepted := [(0, [3, 3])], crit := some (.fin 1, .fin 1, .fin 1, .fin 1)
    autosample := some [], automin := some [], automean := some [], automax := some [], burned := some 0 }

example (itime : List Ens → List Fl) : ∃ st0 st, startProceed shortConfig savedRun none none = .ok st0 ∧ (∀ s ∈ st0.samplers, shortConfig.nrun ≤ s.chain.length) ∧ Rounds itime stay shortConfig st0 1 st := by
  have h0 : ∃ st0, startProceed shortConfig savedRun none none = .ok st0 ∧ st0.samplers = [⟨[[[0], [1]], [[0], [1]], [[0], [1]]], [[.fin 0, .fin 0], [.fin 0, .fin 0], [.fin 0, .fin 0]], [3, 3], 0⟩] ∧ st0.nburn = 0 :=
    ⟨_, rfl, rfl, rfl⟩
  obtain ⟨st0, h1, h2, h3⟩ := h0
  obtain ⟨st, h⟩ := round_early itime stay shortConfig (by decide) st0 _ h2 (by decide) (by rw [h3]; simp [shortConfig]; norm_num) (by simp [shortConfig]; norm_num)
  exact ⟨st0, st, h1, by rw [h2]; simp [shortConfig], .succ _ _ _ .zero h⟩

end Radvel
