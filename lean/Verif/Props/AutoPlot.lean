import Verif.Lemmas.AutoPlot
import Verif.Props.Progress

/-! # C160: the plot of autocorrelation times -/

namespace Radvel
open Classical

/-- C160, one round of any run: if its check was computed after burn-in, the table gets one more row: the number of steps per parameter (ensembles times steps), and the least, mean and greatest of the
autocorrelation times of the samples that were checked. Otherwise the table stays as it is. Where the times are positive, the greatest is below the line N/minAfactor exactly if the check's criterion on
the autocorrelation factor was met. -/
theorem C160_check (itime : List Ens → List Fl) (moves : Nat → Nat → Pos → Move) (cfg : McConfig) (st st' : McState) (h : mcmcRound itime moves cfg st = .ok st') :
    ∃ chains ln k, st'.table = some (chains, ln) ∧ st'.trace = st.trace ++ [k] ∧
      (¬ (k.computed ∧ k.post) → st'.autosamples = st.autosamples ∧ st'.automin = st.automin ∧ st'.automean = st.automean ∧ st'.automax = st.automax) ∧
      (k.computed ∧ k.post → ∃ N lo mean hi, N = chains.length * (((chains.getD 0 []).getD 0 []).getD 0 []).length ∧ Summary (itime chains) lo mean hi ∧
        st'.autosamples = st.autosamples ++ [N] ∧ st'.automin = st.automin ++ [lo] ∧ st'.automean = st.automean ++ [mean] ∧ st'.automax = st.automax ++ [hi] ∧
        ∀ (xs : List ℝ) (f : ℝ), itime chains = xs.map Fl.fin → (∀ x ∈ xs, 0 < x) → 0 < f → cfg.th.minAfactor = .fin f →
          (hi.lt (.fin (N / f)) ↔ cfg.th.minAfactor.lt st'.minafactor)) := by
  obtain ⟨chains, ln, k, h1, h2, h3, h4, h5, h6⟩ := round_auto h
  refine ⟨chains, ln, k, h1, h2, ?_, ?_⟩
  · intro hk
    rcases h6 with ⟨_, g⟩ | ⟨hc, _, lo, hi, _, _, g⟩
    · exact g
    · have hp : st.burnComplete = false := by
        rw [← h3]
        cases hq : k.post with
        | false => rfl
        | true => exact absurd ⟨hc, hq⟩ hk
      rw [hp] at g
      simpa using g
  · intro hk
    rcases h6 with ⟨hc, _⟩ | ⟨hc, hmin, lo, hi, hlo, hhi, g1, g2, g3, g4⟩
    · rw [hc] at hk; exact absurd hk.1 (by simp)
    · have hp : st.burnComplete = true := by rw [← h3]; exact hk.2
      rw [hp] at g1 g2 g3 g4
      refine ⟨_, lo, _, hi, rfl, summary_np hlo hhi, by simpa using g1, by simpa using g2, by simpa using g3, by simpa using g4, ?_⟩
      intro xs f hx hpos hf hth
      rw [hx] at hmin hhi
      obtain ⟨b, rfl, hb, hb'⟩ := npMax_fin hhi
      have e : (xs.map Fl.fin).map (Fl.div (.fin ((chains.length : ℝ) * (((chains.getD 0 []).getD 0 []).getD 0 []).length))) =
          (xs.map fun x => ((chains.length : ℝ) * (((chains.getD 0 []).getD 0 []).getD 0 []).length) / x).map Fl.fin := by
        rw [List.map_map, List.map_map]
        refine List.map_congr_left fun x hx => ?_
        show Fl.quot _ _ = _
        rw [Fl.quot, if_neg (hpos x hx).ne']
        rfl
      rw [e] at hmin
      obtain ⟨m, hm, hm1, hm2⟩ := npMin_fin hmin
      rw [hm, hth]
      obtain ⟨x, hxm, rfl⟩ := List.mem_map.1 hm1
      push_cast
      set N : ℝ := (chains.length : ℝ) * (((chains.getD 0 []).getD 0 []).getD 0 []).length with hN
      have hN0 : 0 ≤ N := by positivity
      show b < N / f ↔ f < N / x
      have hle : N / x ≤ N / b := hm2 _ (List.mem_map.2 ⟨b, hb, rfl⟩)
      have hle' : N / b ≤ N / x := div_le_div_of_nonneg_left hN0 (hpos x hxm) (hb' x hxm)
      rw [le_antisymm hle hle', lt_div_iff₀ hf, lt_div_iff₀ (hpos b hb), mul_comm]

/-- Non-vacuity of `C160_check`: a run whose burn-in ends in the first round; the second round adds a row. -/
example : ∃ st st' k, Session burnConfig st ∧ mcmcRound (fun _ => [.fin 1]) smallMoves burnConfig st = .ok st' ∧ st'.trace.getLast? = some k ∧ k.computed ∧ k.post ∧ burnConfig.th.minAfactor = .fin 2 := by
  obtain ⟨f, st, h1, hb, _⟩ := burn_last (some H5.empty)
  obtain ⟨n, hn, hl, _⟩ := mcmcRun_spec h1
  have hg : Going st := mcmcLoop_invariant Going (fun a b ha hr => ha.round (by simp) hr) n _ _ _ ⟨by simp [startFresh], by intro l hl; cases hl⟩ hl
  obtain ⟨st', h⟩ := mcmcRound_total (fun _ => [.fin 1]) smallMoves burnConfig st (by decide) (by decide) (by decide) (by decide) (by decide) hg.ne (by simp) hg.oac
  obtain ⟨stc, hc, rfl⟩ := mcmcRound_spec h
  obtain ⟨out, _, _, _, _, _, _, _, _, _, ht⟩ := convergenceCheck_computed (cfg := burnConfig) le_rfl hc
  refine ⟨st, _, ⟨true, out.ismixed, st.burnComplete⟩, ?_, h, ?_, rfl, hb, rfl⟩
  · obtain ⟨m, hm⟩ := numRun_pos (nrun := burnConfig.nrun) (ci := burnConfig.checkinterval) (by decide) (by decide)
    rw [hm] at hn
    cases hn
    exact Session.fresh (p0 := [[[0], [0]], [[0], [0]]]) (by decide) (by decide) (by decide) (fun i n p => ⟨smallMoves_honest.walkers i n p, smallMoves_honest.dims i n p⟩) rfl hl
  · rw [(burnStep_fields burnConfig _).2.1]
    show stc.trace.getLast? = _
    rw [ht]
    simp [afterBlocks]

/-- C160: after any number of rounds of a new or continued run, the table has one row for every check that was computed after burn-in, besides those it started with. -/
theorem C160_count (itime : List Ens → List Fl) (moves : Nat → Nat → Pos → Move) (cfg : McConfig) (st0 : McState) (h0 : IsStart cfg st0) (r : Nat) (st : McState) (h : Rounds itime moves cfg st0 r st) :
    st.autosamples.length = st0.autosamples.length + (st.trace.filter fun k => k.computed && k.post).length := by
  induction h with
  | zero => rw [h0.facts.1]; simp
  | succ r st st' _ hr ih =>
    obtain ⟨chains, ln, k, _, h2, h3, h4⟩ := C160_check itime moves cfg st st' hr
    rw [h2, List.filter_append, List.length_append]
    by_cases hk : k.computed ∧ k.post
    · obtain ⟨N, lo, mean, hi, _, _, g, _⟩ := h4 hk
      rw [g, List.length_append, ih]
      simp [hk.1, hk.2]
      omega
    · rw [(h3 hk).1, ih]
      have : (k.computed && k.post) = false := by
        rw [Bool.and_eq_false_iff]
        by_contra hc
        push Not at hc
        simp only [ne_eq, Bool.not_eq_false] at hc
        exact hk hc
      simp [this]

/-- C160: in every history of saved, interrupted and continued runs the table is made, has as many rows as checks were recorded, and shows them from left to right: each has more steps than the one before. -/
theorem C160_order (cfg : McConfig) (hnd : 0 < cfg.ndim) (st : McState) (h : Session cfg st) : ∃ rows, autoTable cfg.th.minAfactor st = .ok rows ∧
    rows.map AutoRow.samples = st.autosamples ∧ rows.map AutoRow.lo = st.automin ∧ rows.map AutoRow.mean = st.automean ∧ rows.map AutoRow.hi = st.automax ∧
    (∀ r ∈ rows, r.factor = cfg.th.minAfactor) ∧ rows.Pairwise fun a b => a.samples < b.samples := by
  obtain ⟨hI, _⟩ := h.auto hnd
  obtain ⟨c1, c2, c3⟩ := hI.cols
  have key : ∀ {α : Type} (l : List α) (d : α) (n : Nat), l.length = n → (List.range n).map (fun i => l.getD i d) = l := by
    intro α l d n hn
    apply List.ext_getElem?
    intro i
    rw [List.getElem?_map]
    by_cases hi : i < n
    · rw [List.getElem?_range hi]
      simp [List.getD_eq_getElem?_getD, List.getElem?_eq_getElem (hn ▸ hi)]
    · rw [List.getElem?_eq_none (by simp; omega), List.getElem?_eq_none (by omega)]
      rfl
  unfold autoTable
  rw [if_neg (by push Not; exact ⟨c1, c2, c3⟩)]
  have e : (List.map AutoRow.samples ((List.range st.autosamples.length).map fun i =>
      (⟨st.autosamples.getD i 0, st.automin.getD i .nan, st.automean.getD i .nan, st.automax.getD i .nan, cfg.th.minAfactor⟩ : AutoRow))) = st.autosamples := by
    rw [List.map_map]; exact key _ _ _ rfl
  refine ⟨_, rfl, e, ?_, ?_, ?_, ?_, ?_⟩
  · rw [List.map_map]; exact key _ _ _ c1
  · rw [List.map_map]; exact key _ _ _ c2
  · rw [List.map_map]; exact key _ _ _ c3
  · intro r hr
    obtain ⟨_, _, rfl⟩ := List.mem_map.1 hr
    rfl
  · rw [← List.pairwise_map (f := AutoRow.samples) (R := (· < ·)), e]
    exact hI.sorted

/-- Non-vacuity of `C160_order` (the run of `C67_burn_violated`). -/
example : ∃ st, Session burnConfig st ∧ 0 < burnConfig.ndim := by
  obtain ⟨st, hs, _⟩ := burnSession
  exact ⟨st, hs, by decide⟩

theorem foldl_le (l : List Nat) : ∀ a, l.foldl min a ≤ a ∧ (∀ x ∈ l, l.foldl min a ≤ x) ∧ a ≤ l.foldl max a ∧ ∀ x ∈ l, x ≤ l.foldl max a := by
  induction l with
  | nil => simp
  | cons y t ih =>
    intro a
    obtain ⟨h1, h2, _, _⟩ := ih (min a y)
    obtain ⟨_, _, h3, h4⟩ := ih (max a y)
    simp only [List.foldl_cons, List.mem_cons, forall_eq_or_imp]
    exact ⟨by omega, ⟨by omega, h2⟩, by omega, by omega, h4⟩

theorem pdMin_fin {xs : List ℝ} (h : xs ≠ []) : ∃ m, pdMin (xs.map Fl.fin) = .fin m ∧ m ∈ xs ∧ ∀ x ∈ xs, m ≤ x := by
  obtain ⟨y, t, rfl⟩ := List.exists_cons_of_ne_nil h
  obtain ⟨b, h1, h2, h3, h4⟩ := foldl_minStep_fin t y
  have hf : ((y :: t).map Fl.fin).filter (fun x => decide (x ≠ .nan)) = (y :: t).map Fl.fin := by
    rw [List.filter_eq_self]
    intro x hx
    obtain ⟨_, _, rfl⟩ := List.mem_map.1 hx
    simp
  refine ⟨b, ?_, ?_, ?_⟩
  · unfold pdMin
    rw [hf]
    exact h1
  · rcases h2 with rfl | h2 <;> simp_all
  · intro x hx
    rcases List.mem_cons.1 hx with rfl | hx
    · exact h3
    · exact h4 x hx

theorem pdMax_fin {xs : List ℝ} (h : xs ≠ []) : ∃ m, pdMax (xs.map Fl.fin) = .fin m ∧ m ∈ xs ∧ ∀ x ∈ xs, x ≤ m := by
  obtain ⟨y, t, rfl⟩ := List.exists_cons_of_ne_nil h
  obtain ⟨b, h1, h2, h3, h4⟩ := foldl_maxStep_fin t y
  have hf : ((y :: t).map Fl.fin).filter (fun x => decide (x ≠ .nan)) = (y :: t).map Fl.fin := by
    rw [List.filter_eq_self]
    intro x hx
    obtain ⟨_, _, rfl⟩ := List.mem_map.1 hx
    simp
  refine ⟨b, ?_, ?_, ?_⟩
  · unfold pdMax
    rw [hf]
    exact h1
  · rcases h2 with rfl | h2 <;> simp_all
  · intro x hx
    rcases List.mem_cons.1 hx with rfl | hx
    · exact h3
    · exact h4 x hx

theorem mean_between {xs : List ℝ} {a b : ℝ} (hne : xs ≠ []) (h : ∀ x ∈ xs, a ≤ x ∧ x ≤ b) : a ≤ xs.sum / xs.length ∧ xs.sum / xs.length ≤ b := by
  have hl : (0 : ℝ) < xs.length := by
    have := List.length_pos_of_ne_nil hne
    exact_mod_cast this
  have hs : ∀ l : List ℝ, (∀ x ∈ l, a ≤ x ∧ x ≤ b) → a * l.length ≤ l.sum ∧ l.sum ≤ b * l.length := by
    intro l
    induction l with
    | nil => simp
    | cons y t ih =>
      intro hl
      have h1 := ih fun x hx => hl x (by simp [hx])
      have h2 := hl y (by simp)
      simp only [List.length_cons, List.sum_cons]
      push_cast
      constructor <;> nlinarith [h1.1, h1.2, h2.1, h2.2]
  obtain ⟨h1, h2⟩ := hs xs h
  exact ⟨by rw [le_div_iff₀ hl]; exact h1, by rw [div_le_iff₀ hl]; exact h2⟩

/-- C160, the figure: if the table has rows and all autocorrelation times are finite, the figure is drawn; it shows exactly the rows, all of them within the axes, and the line N/minAfactor at every row's
number of steps, nowhere above the axes. (The line can be below them: `C160_line_violated`.) -/
theorem C160_figure_partial (rows : List AutoRow) (hne : rows ≠ []) (f : ℝ) (hf : 0 < f) (hfac : ∀ r ∈ rows, r.factor = .fin f) (times : AutoRow → List ℝ)
    (hsum : ∀ r ∈ rows, times r ≠ [] ∧ Summary ((times r).map Fl.fin) r.lo r.mean r.hi) :
    ∃ fig, autoPlot rows = .ok fig ∧ fig.los = rows.map (fun r => (r.samples, r.lo)) ∧ fig.means = rows.map (fun r => (r.samples, r.mean)) ∧ fig.his = rows.map (fun r => (r.samples, r.hi)) ∧
      fig.line = rows.map (fun r => (r.samples, .fin (r.samples / f))) ∧
      (∀ r ∈ rows, ∃ a m b, r.lo = .fin a ∧ r.mean = .fin m ∧ r.hi = .fin b ∧ InFrame fig r.samples a ∧ InFrame fig r.samples m ∧ InFrame fig r.samples b) ∧
      ∀ r ∈ rows, (r.samples : ℝ) / f ≤ fig.ylim.2 := by
  have hnum : ∀ r ∈ rows, ∃ a m b, r.lo = .fin a ∧ r.mean = .fin m ∧ r.hi = .fin b ∧ a ≤ m ∧ m ≤ b := by
    intro r hr
    obtain ⟨h1, _, h2⟩ := hsum r hr
    obtain ⟨a, b, ha, hb, hm, _, _, hx⟩ := h2 _ rfl
    have := mean_between h1 hx
    exact ⟨a, _, b, ha, hm, hb, this.1, this.2⟩
  have hdiv : ∀ r : AutoRow, Fl.div (.fin r.samples) (.fin f) = .fin (r.samples / f) := by
    intro r
    show Fl.quot _ _ = _
    rw [Fl.quot, if_neg hf.ne']
  obtain ⟨r0, t, rfl⟩ := List.exists_cons_of_ne_nil hne
  set rows := r0 :: t with hrows
  have hlos : ∃ xs : List ℝ, rows.map AutoRow.lo = xs.map Fl.fin ∧ xs ≠ [] := by
    refine ⟨rows.map fun r => match r.lo with | .fin a => a | _ => 0, ?_, by simp [hrows]⟩
    rw [List.map_map]
    refine List.map_congr_left fun r hr => ?_
    obtain ⟨a, m, b, h1, _⟩ := hnum r hr
    simp [h1]
  have hhis : ∃ xs : List ℝ, rows.map AutoRow.hi = xs.map Fl.fin ∧ xs ≠ [] := by
    refine ⟨rows.map fun r => match r.hi with | .fin a => a | _ => 0, ?_, by simp [hrows]⟩
    rw [List.map_map]
    refine List.map_congr_left fun r hr => ?_
    obtain ⟨a, m, b, _, _, h1, _⟩ := hnum r hr
    simp [h1]
  have hcrit : (rows.map fun r => Fl.div (.fin r.samples) r.factor) = (rows.map fun r => (r.samples : ℝ) / f).map Fl.fin := by
    rw [List.map_map]
    refine List.map_congr_left fun r hr => ?_
    rw [hfac r hr, hdiv]
    rfl
  obtain ⟨ls, hl1, hl2⟩ := hlos
  obtain ⟨hs, hh1, hh2⟩ := hhis
  obtain ⟨lo, hlo, _, hlo'⟩ := pdMin_fin hl2
  obtain ⟨top, htop, _, htop'⟩ := pdMax_fin hh2
  obtain ⟨cr, hcr, _, hcr'⟩ := pdMax_fin (xs := rows.map fun r => (r.samples : ℝ) / f) (by simp [hrows])
  have hlim : ∃ y, (if Fl.lt (.fin top) (.fin cr) then Fl.fin cr else Fl.fin top) = .fin y ∧ top ≤ y ∧ cr ≤ y := by
    by_cases hlt : top < cr
    · exact ⟨cr, if_pos hlt, hlt.le, le_rfl⟩
    · exact ⟨top, if_neg hlt, le_rfl, by push Not at hlt; exact hlt⟩
  obtain ⟨y, hy, hy1, hy2⟩ := hlim
  have hplot : autoPlot rows = .ok ⟨rows.map fun r => (r.samples, r.lo), rows.map fun r => (r.samples, r.mean), rows.map fun r => (r.samples, r.hi),
      rows.map fun r => (r.samples, Fl.div (.fin r.samples) r0.factor),
      if (rows.map AutoRow.samples).foldl min r0.samples ≠ (rows.map AutoRow.samples).foldl max r0.samples then
        some ((rows.map AutoRow.samples).foldl min r0.samples, (rows.map AutoRow.samples).foldl max r0.samples) else none, (lo, y)⟩ := by
    rw [autoPlot.eq_def]
    simp only [hrows]
    simp only [← hrows, hl1, hh1, hcrit, hlo, htop, hcr, hy, setLim]
  refine ⟨_, hplot, rfl, rfl, rfl, ?_, ?_, ?_⟩
  · simp only
    refine List.map_congr_left fun r _ => ?_
    rw [hfac r0 (by simp [hrows]), hdiv]
  · intro r hr
    obtain ⟨a, m, b, h1, h2, h3, h4, h5⟩ := hnum r hr
    obtain ⟨f1, f2, f3, f4⟩ := foldl_le (rows.map AutoRow.samples) r0.samples
    have hx : ∀ p q, (if (rows.map AutoRow.samples).foldl min r0.samples ≠ (rows.map AutoRow.samples).foldl max r0.samples then
        some ((rows.map AutoRow.samples).foldl min r0.samples, (rows.map AutoRow.samples).foldl max r0.samples) else none) = some (p, q) → p ≤ r.samples ∧ r.samples ≤ q := by
      intro p q hpq
      split at hpq
      · cases hpq
        exact ⟨f2 _ (List.mem_map.2 ⟨r, hr, rfl⟩), f4 _ (List.mem_map.2 ⟨r, hr, rfl⟩)⟩
      · cases hpq
    have ha : lo ≤ a := by
      apply hlo'
      have : Fl.fin a ∈ ls.map Fl.fin := by rw [← hl1, ← h1]; exact List.mem_map.2 ⟨r, hr, rfl⟩
      obtain ⟨z, hz, e⟩ := List.mem_map.1 this
      cases e; exact hz
    have hb : b ≤ top := by
      apply htop'
      have : Fl.fin b ∈ hs.map Fl.fin := by rw [← hh1, ← h3]; exact List.mem_map.2 ⟨r, hr, rfl⟩
      obtain ⟨z, hz, e⟩ := List.mem_map.1 this
      cases e; exact hz
    exact ⟨a, m, b, h1, h2, h3, ⟨hx, ha, show a ≤ y by linarith⟩, ⟨hx, show lo ≤ m by linarith, show m ≤ y by linarith⟩, ⟨hx, show lo ≤ b by linarith, show b ≤ y by linarith⟩⟩
  · intro r hr
    exact (hcr' _ (List.mem_map.2 ⟨r, hr, rfl⟩)).trans hy2

/-- Non-vacuity of `C160_figure_partial`: two checks with two parameters each. -/
example : ∀ r ∈ ([⟨400, .fin 20, .fin 21, .fin 22, .fin 40⟩, ⟨800, .fin 20, .fin 21, .fin 22, .fin 40⟩] : List AutoRow),
    r.factor = .fin 40 ∧ ([20, 22] : List ℝ) ≠ [] ∧ Summary (([20, 22] : List ℝ).map Fl.fin) r.lo r.mean r.hi := by
  have key : Summary (([20, 22] : List ℝ).map Fl.fin) (.fin 20) (.fin 21) (.fin 22) := by
    refine ⟨by simp, ?_⟩
    intro xs hx
    have : xs = [20, 22] := by
      have hinj : Function.Injective Fl.fin := fun a b h => by cases h; rfl
      exact (List.map_injective_iff.2 hinj hx).symm
    subst this
    exact ⟨20, 22, rfl, rfl, by norm_num, by simp, by simp, by simp; norm_num⟩
  intro r hr
  simp only [List.mem_cons, List.not_mem_nil, or_false] at hr
  rcases hr with rfl | rfl
  · exact ⟨rfl, by simp, key⟩
  · exact ⟨rfl, by simp, key⟩

/-- C160 is violated for runs without a check after burn-in: the table has no rows, and the plot raises `KeyError`. -/
theorem C160_empty_violated (itime : List Ens → List Fl) (moves : Nat → Nat → Pos → Move) (cfg : McConfig) (hnd : 0 < cfg.ndim) (hnw : 0 < cfg.nwalkers) (hens : 0 < cfg.ensembles) (hci : 1 ≤ cfg.checkinterval)
    (p0 : List Pos) (hp : p0.length = cfg.ensembles) (file : Option H5) (prev : Option (List Ens × List (List (List Fl)))) (r : Nat) (st : McState)
    (h : Rounds itime moves cfg (startFresh p0 cfg.nwalkers file prev) r st) (hno : ∀ k ∈ st.trace, k.computed → k.post = false) :
    autoTable cfg.th.minAfactor st = .ok [] ∧ autoPlot [] = .error .keyError := by
  refine ⟨?_, rfl⟩
  have hl := C160_count itime moves cfg _ (.inl ⟨p0, file, prev, hp, rfl⟩) r st h
  have h0 : (st.trace.filter fun k => k.computed && k.post) = [] := by
    rw [List.filter_eq_nil_iff]
    intro k hk hc
    rw [Bool.and_eq_true] at hc
    rw [hno k hk hc.1] at hc
    exact absurd hc.2 (by simp)
  rw [h0] at hl
  have hnil : st.autosamples = [] := List.eq_nil_of_length_eq_zero (by rw [hl]; rfl)
  have hI : AutoInv cfg st st.samplers st.burnComplete := by
    clear hno hl h0 hnil
    induction h with
    | zero => exact AutoInv.fresh hp _ _
    | succ r st st' _ hr ih => exact (ih.round hnd hnw hens hci hr).1
  obtain ⟨c1, c2, c3⟩ := hI.cols
  unfold autoTable
  rw [if_neg (by push Not; exact ⟨c1, c2, c3⟩), hnil]
  rfl

/-- Non-vacuity of `C160_empty_violated`: a run that is too short for a check. -/
example (itime : List Ens → List Fl) : ∃ st, Rounds itime stay shortConfig (startFresh [[[0], [1]]] shortConfig.nwalkers none none) 1 st ∧ ∀ k ∈ st.trace, k.computed → k.post = false := by
  obtain ⟨st, h⟩ := round_early itime stay shortConfig (by decide) (startFresh [[[0], [1]]] 2 none none) ⟨[], [], [0, 0], 0⟩ rfl (by decide) (by simp [shortConfig, startFresh]; norm_num) (by simp [shortConfig]; norm_num)
  refine ⟨st, .succ _ _ _ .zero h, ?_⟩
  obtain ⟨_, _, k, _, h2, h3, _⟩ := round_auto h
  rw [h2]
  intro k' hk' _
  simp only [startFresh, List.nil_append, List.mem_singleton] at hk'
  rw [hk', h3]
  rfl

/-- C160 is violated for the line: while no check is near the criterion, the line is outside the axes everywhere. -/
theorem C160_line_violated (r : AutoRow) (f a : ℝ) (hf : 0 < f) (hfac : r.factor = .fin f) (x : ℝ) (hlo : r.lo = .fin a) (hhi : r.hi = .fin x) (hax : a ≤ x) (hlow : (r.samples : ℝ) / f < a) :
    ∃ fig, autoPlot [r] = .ok fig ∧ fig.line = [(r.samples, .fin (r.samples / f))] ∧ ¬ InFrame fig r.samples (r.samples / f) := by
  have hdiv : Fl.div (.fin r.samples) (.fin f) = .fin (r.samples / f) := by
    show Fl.quot _ _ = _
    rw [Fl.quot, if_neg hf.ne']
  unfold autoPlot
  have e1 : pdMin [Fl.fin a] = .fin a := by simp [pdMin]
  have e2 : ∀ z, pdMax [Fl.fin z] = .fin z := by intro z; simp [pdMax]
  simp only [List.map_cons, List.map_nil, hlo, hhi, hfac, hdiv, e1, e2]
  have hn : ¬ Fl.lt (.fin x) (.fin ((r.samples : ℝ) / f)) := by
    show ¬ x < _
    push Not; linarith
  rw [if_neg hn]
  refine ⟨_, rfl, rfl, ?_⟩
  rintro ⟨_, h, _⟩
  simp only at h
  linarith

/-- Non-vacuity of `C160_line_violated`: after 400 steps with autocorrelation times of 20 to 22 the criterion N/40 is at 10. -/
example : ((400 : Nat) : ℝ) / 40 < 20 ∧ (20 : ℝ) ≤ 22 := by norm_num

/-- C160 is violated for autocorrelation times that are not positive (`integrated_time` returns such for anticorrelated samples): the points can be below the line although the criterion was not met. -/
theorem C160_negative_violated (N f : ℝ) (hf : 0 < f) (hN : 0 < N) (t : ℝ) (ht : t < 0) :
    ∃ hi minafactor, Fl.npMax [.fin t] = .ok hi ∧ Fl.npMin (([.fin t] : List Fl).map (Fl.div (.fin N))) = .ok minafactor ∧ hi.lt (.fin (N / f)) ∧ ¬ Fl.lt (.fin f) minafactor := by
  have hdiv : Fl.div (.fin N) (.fin t) = .fin (N / t) := by
    show Fl.quot _ _ = _
    rw [Fl.quot, if_neg ht.ne]
  refine ⟨.fin t, .fin (N / t), by simp [Fl.npMax, Fl.pyMax], by simp [Fl.npMin, Fl.pyMin, hdiv], ?_, ?_⟩
  · show t < N / f
    have : 0 < N / f := by positivity
    linarith
  · show ¬ f < N / t
    have : N / t < 0 := div_neg_of_pos_of_neg hN ht
    push Not; linarith

/-- Non-vacuity of `C160_negative_violated`. -/
example : (0 : ℝ) < 40 ∧ (0 : ℝ) < 400 ∧ (-0.5 : ℝ) < 0 := by norm_num

end Radvel
