import Verif.Model.TrendPlot
import Verif.Props.Mcmc

/-! Indexing into the table of samples, and what the samplers hold. -/

namespace Radvel
open Classical

/-! ## Lists -/

theorem flatMap_length_const {α β : Type} (f : α → List β) (m : Nat) : ∀ (l : List α), (∀ a ∈ l, (f a).length = m) → (l.flatMap f).length = l.length * m := by
  intro l
  induction l with
  | nil => intro _; simp
  | cons a l ih =>
    intro h
    rw [List.flatMap_cons, List.length_append, h a (by simp), ih fun b hb => h b (by simp [hb])]
    simp only [List.length_cons]; ring

theorem flatMap_getElem?_const {α β : Type} (f : α → List β) (m : Nat) : ∀ (l : List α), (∀ a ∈ l, (f a).length = m) → ∀ (k j : Nat), j < m →
    (l.flatMap f)[k * m + j]? = (l[k]?).bind fun a => (f a)[j]? := by
  intro l
  induction l with
  | nil => intro _ k j _; simp
  | cons a l ih =>
    intro h k j hj
    have ha := h a (by simp)
    rw [List.flatMap_cons]
    cases k with
    | zero =>
      rw [List.getElem?_append_left (by omega)]
      simp
    | succ k =>
      rw [List.getElem?_append_right (by rw [ha]; nlinarith), ha, show (k + 1) * m + j - m = k * m + j by rw [Nat.succ_mul]; omega,
        ih (fun b hb => h b (by simp [hb])) k j hj]
      simp

theorem everyNth_append {α : Type} (t : Nat) (l : List α) (a : α) : everyNth t (l ++ [a]) = everyNth t l ++ (if l.length % t = 0 then [a] else []) := by
  unfold everyNth
  rw [List.length_append, List.length_singleton, List.range_succ, List.filterMap_append]
  congr 1
  · apply List.filterMap_congr
    intro i hi
    rw [List.mem_range] at hi
    rw [List.getElem?_append_left hi]
  · simp only [List.filterMap_cons, List.filterMap_nil]
    split
    · rename_i h
      split at h
      · simp at h
      · rw [if_neg (by assumption)]
    · rename_i b h
      split at h
      · rw [if_pos (by assumption)]; simp at h; rw [h]
      · cases h

theorem everyNth_spec {α : Type} (t : Nat) (ht : 0 < t) (l : List α) : (everyNth t l).length = (l.length + t - 1) / t ∧ ∀ i : Nat, (everyNth t l)[i]? = l[i * t]? := by
  induction l using List.reverseRecOn with
  | nil => refine ⟨?_, fun i => by simp [everyNth]⟩
           simp only [everyNth, List.length_nil, List.range_zero, List.filterMap_nil]
           rw [Nat.div_eq_of_lt (by omega)]
  | append_singleton l a ih =>
    obtain ⟨h1, h2⟩ := ih
    rw [everyNth_append]
    by_cases hm : l.length % t = 0
    · obtain ⟨q, hq⟩ := Nat.dvd_of_mod_eq_zero hm
      have hl : (l.length + t - 1) / t = q := by
        rw [hq, show t * q + t - 1 = (t - 1) + t * q by omega, Nat.add_mul_div_left _ _ ht, Nat.div_eq_of_lt (by omega), zero_add]
      rw [if_pos hm]
      constructor
      · rw [List.length_append, h1, hl, List.length_append, List.length_singleton, hq, show t * q + 1 + t - 1 = t * (q + 1) by rw [Nat.mul_succ]; omega, Nat.mul_div_cancel_left _ ht]
      · intro i
        rcases lt_trichotomy i q with hi | hi | hi
        · have : i * t < t * q := by rw [Nat.mul_comm t q]; exact Nat.mul_lt_mul_of_pos_right hi ht
          rw [List.getElem?_append_left (by rw [h1, hl]; exact hi), h2, List.getElem?_append_left (by rw [hq]; exact this)]
        · subst hi
          rw [List.getElem?_append_right (by rw [h1, hl]), h1, hl, List.getElem?_append_right (by rw [hq, Nat.mul_comm]), hq, Nat.mul_comm i t]
          simp
        · have : t * q + 1 ≤ i * t := by
            have : (q + 1) * t ≤ i * t := Nat.mul_le_mul_right _ hi
            have : (q + 1) * t = t * q + t := by ring
            omega
          rw [List.getElem?_eq_none (by rw [List.length_append, h1, hl]; simpa using hi), List.getElem?_eq_none (by simp; omega)]
    · rw [if_neg hm, List.append_nil]
      have hlt : 0 < l.length := by by_contra h0; apply hm; rw [show l.length = 0 by omega]; simp
      have hdm := Nat.div_add_mod l.length t
      have hlt2 := Nat.mod_lt l.length ht
      set q := l.length / t with hq
      set r := l.length % t with hr
      have hsame : (l.length + 1 + t - 1) / t = (l.length + t - 1) / t := by
        have e1 : l.length + 1 + t - 1 = r + t * (q + 1) := by rw [Nat.mul_succ]; omega
        have e2 : l.length + t - 1 = (r - 1) + t * (q + 1) := by rw [Nat.mul_succ]; omega
        rw [e1, e2, Nat.add_mul_div_left _ _ ht, Nat.add_mul_div_left _ _ ht, Nat.div_eq_of_lt hlt2, Nat.div_eq_of_lt (by omega)]
      constructor
      · rw [h1, List.length_append, List.length_singleton, hsame]
      · intro i
        rw [h2]
        by_cases hi : i * t < l.length
        · rw [List.getElem?_append_left hi]
        · have : i * t ≠ l.length := by intro h0; apply hm; rw [hr, ← h0]; simp
          rw [List.getElem?_eq_none (by omega), List.getElem?_eq_none (by simp; omega)]

/-! ## What the samplers hold -/

/-- The sampler is what an emcee sampler is: every move returns `nw` positions of `nd` numbers with the log-probabilities of these positions. -/
structure HonestMoves (nd nw : Nat) (lp : List ℝ → Fl) (moves : Nat → Nat → Pos → Move) : Prop where
  walkers : ∀ i n p, (moves i n p).pos.length = nw
  dims : ∀ i n p, ∀ row ∈ (moves i n p).pos, row.length = nd
  logProb : ∀ i n p, (moves i n p).logProb = (moves i n p).pos.map lp

/-- Ensemble `e`'s sampler holds `n` samples, the last `n` moves it made, with matching log-probabilities. -/
structure Stored (nd nw : Nat) (lp : List ℝ → Fl) (moves : Nat → Nat → Pos → Move) (n e : Nat) (s : Sampler) : Prop where
  len : s.chain.length = n
  ln : s.logProb = s.chain.map fun p => p.map lp
  walkers : ∀ p ∈ s.chain, p.length = nw
  dims : ∀ p ∈ s.chain, ∀ row ∈ p, row.length = nd
  le : n ≤ s.count
  from_moves : ∀ (j : Nat) p, s.chain[j]? = some p → ∃ q, p = (moves e (s.count - n + j) q).pos

theorem Stored.advance {nd nw : Nat} {lp : List ℝ → Fl} {moves : Nat → Nat → Pos → Move} (hm : HonestMoves nd nw lp moves) {e : Nat} (k : Nat) :
    ∀ {n : Nat} {s : Sampler} (p : Pos), Stored nd nw lp moves n e s → Stored nd nw lp moves (n + k) e (s.advance (moves e) p k) := by
  induction k with
  | zero => intro n s p h; exact h
  | succ k ih =>
    intro n s p h
    have h1 : Stored nd nw lp moves (n + 1) e (s.store (moves e s.count p)) := by
      refine ⟨by simp [Sampler.store, h.len], ?_, ?_, ?_, ?_, ?_⟩
      · simp [Sampler.store, h.ln, hm.logProb]
      · intro q hq
        simp only [Sampler.store, List.mem_append, List.mem_singleton] at hq
        rcases hq with hq | rfl
        · exact h.walkers q hq
        · exact hm.walkers _ _ _
      · intro q hq
        simp only [Sampler.store, List.mem_append, List.mem_singleton] at hq
        rcases hq with hq | rfl
        · exact h.dims q hq
        · exact hm.dims _ _ _
      · have := h.le; simp only [Sampler.store]; omega
      · intro j q hq
        have hle := h.le
        simp only [Sampler.store] at hq ⊢
        rw [show s.count + 1 - (n + 1) + j = s.count - n + j by omega]
        by_cases hj : j < s.chain.length
        · rw [List.getElem?_append_left hj] at hq; exact h.from_moves j q hq
        · rw [List.getElem?_append_right (by omega)] at hq
          have hj' : j = n := by
            by_contra hne
            rw [List.getElem?_eq_none (by have := h.len; simp; omega)] at hq; cases hq
          subst hj'
          rw [h.len, Nat.sub_self] at hq
          cases hq
          exact ⟨p, by rw [Nat.sub_add_cancel hle]⟩
    have := ih (moves e s.count p).pos h1
    unfold Sampler.advance
    simp only
    rw [show n + (k + 1) = n + 1 + k by omega]
    exact this

theorem Stored.block {nd nw : Nat} {lp : List ℝ → Fl} {moves : Nat → Nat → Pos → Move} (hm : HonestMoves nd nw lp moves) {e n ci : Nat} (hci : 1 ≤ ci) {s : Sampler} (started : Bool) (init : Pos)
    (h : Stored nd nw lp moves n e s) : Stored nd nw lp moves (n + ci) e (block ci (moves e) started s init) := by
  have := (h.advance hm 1 (startPos started s init)).advance hm (ci - 1) (startPos started s init)
  rw [show n + 1 + (ci - 1) = n + ci by omega] at this
  exact this

theorem Stored.reset {nd nw : Nat} {lp : List ℝ → Fl} {moves : Nat → Nat → Pos → Move} {e n : Nat} {s : Sampler} (_ : Stored nd nw lp moves n e s) : Stored nd nw lp moves 0 e s.reset :=
  ⟨rfl, rfl, by simp [Sampler.reset], by simp [Sampler.reset], by omega, by simp [Sampler.reset]⟩

theorem blocks_getElem? (ci : Nat) (moves : Nat → Nat → Pos → Move) : ∀ (ss : List Sampler) (started : Bool) (i : Nat) (inits : List Pos) (e : Nat) (s : Sampler),
    (blocks ci moves started i ss inits)[e]? = some s → ∃ s0, ss[e]? = some s0 ∧ ∃ b init, s = block ci (moves (i + e)) b s0 init := by
  intro ss
  induction ss with
  | nil => intro started i inits e s h; simp [blocks] at h
  | cons a ss ih =>
    intro started i inits e s h
    unfold blocks at h
    cases e with
    | zero => rw [List.getElem?_cons_zero] at h; cases h; exact ⟨a, by simp, started, inits.headD [], rfl⟩
    | succ e =>
      rw [List.getElem?_cons_succ] at h
      obtain ⟨s0, h0, b, init, h1⟩ := ih true (i + 1) inits.tail e s h
      exact ⟨s0, by simpa using h0, b, init, by rw [h1, show i + 1 + e = i + (e + 1) by omega]⟩

/-- The rounds of the current phase (burn-in or after). -/
def phaseRounds (b : Bool) (st : McState) : Nat := (st.trace.filter fun c => c.post == b).length

/-- What holds between two rounds of a run: all samplers hold the samples of the current phase. -/
structure TableInv (cfg : McConfig) (lp : List ℝ → Fl) (moves : Nat → Nat → Pos → Move) (st : McState) : Prop where
  samplers : ∀ e s, st.samplers[e]? = some s → Stored cfg.ndim cfg.nwalkers lp moves (phaseRounds st.burnComplete st * cfg.checkinterval) e s ∧ s.count = st.trace.length * cfg.checkinterval
  len : st.samplers.length = cfg.ensembles
  early : st.burnComplete = false → ∀ c ∈ st.trace, c.post = false

/-- What the last check saw. -/
structure LastCheck (cfg : McConfig) (lp : List ℝ → Fl) (moves : Nat → Nat → Pos → Move) (st : McState) (c : Check) : Prop where
  last : st.trace.getLast? = some c
  checked : ∀ e s, st.checked[e]? = some s → Stored cfg.ndim cfg.nwalkers lp moves (phaseRounds c.post st * cfg.checkinterval) e s ∧ s.count = st.trace.length * cfg.checkinterval
  len : st.checked.length = cfg.ensembles
  table : st.table = some (st.checked.map (chainT cfg.ndim cfg.nwalkers), st.checked.map (logProbT cfg.nwalkers))

theorem TableInv.round {itime : List Ens → List Fl} {moves : Nat → Nat → Pos → Move} {cfg : McConfig} {lp : List ℝ → Fl} (hm : HonestMoves cfg.ndim cfg.nwalkers lp moves)
    (hci : 1 ≤ cfg.checkinterval) {st st' : McState} (hI : TableInv cfg lp moves st) (h : mcmcRound itime moves cfg st = .ok st') :
    TableInv cfg lp moves st' ∧ ∃ c, LastCheck cfg lp moves st' c := by
  obtain ⟨stc, hc, rfl⟩ := mcmcRound_spec h
  obtain ⟨fr, htab, hchk, _, _, hcase⟩ := convergenceCheck_spec hc
  obtain ⟨_, b2, _, b4, b5, _⟩ := burnStep_fields cfg { stc with file := stc.file.map (saveAll stc 0 stc.samplers) }
  have htr : ∃ c : Check, stc.trace = st.trace ++ [c] ∧ c.post = st.burnComplete := by
    rcases hcase with ⟨_, _, c3⟩ | ⟨_, _, _, _, _, _, _, c6⟩
    · exact ⟨_, c3, rfl⟩
    · exact ⟨_, c6, rfl⟩
  obtain ⟨c, htr, hpost⟩ := htr
  have hss : stc.samplers = blocks cfg.checkinterval moves st.started 0 st.samplers st.inits := fr.samplers
  have hbc : stc.burnComplete = st.burnComplete := fr.burnComplete
  have hph : (stc.trace.filter fun x => x.post == st.burnComplete).length = phaseRounds st.burnComplete st + 1 := by
    rw [htr, List.filter_append, List.length_append]
    simp [phaseRounds, hpost]
  have hsam : ∀ e s, stc.samplers[e]? = some s → Stored cfg.ndim cfg.nwalkers lp moves ((phaseRounds st.burnComplete st + 1) * cfg.checkinterval) e s ∧
      s.count = (st.trace.length + 1) * cfg.checkinterval := by
    intro e s hs
    rw [hss] at hs
    obtain ⟨s0, hs0, b, init, rfl⟩ := blocks_getElem? _ _ _ _ _ _ _ _ hs
    obtain ⟨g1, g2⟩ := hI.samplers e s0 hs0
    rw [zero_add]
    refine ⟨?_, ?_⟩
    · have := g1.block hm hci b init
      rwa [show phaseRounds st.burnComplete st * cfg.checkinterval + cfg.checkinterval = (phaseRounds st.burnComplete st + 1) * cfg.checkinterval by ring] at this
    · rw [(block_length _ hci _ _ _ _).2.2, g2]; ring
  have hlen : stc.samplers.length = cfg.ensembles := by rw [hss, blocks_length, hI.len]
  have htrl : stc.trace.length = st.trace.length + 1 := by rw [htr]; simp
  refine ⟨?_, c, ?_, ?_, ?_, ?_⟩
  · by_cases hb : stc.burnComplete = false ∧ (stc.maxgr.leq cfg.burnGR ∨ cfg.burnAfactor.leq stc.minafactor)
    · have hbs : burnStep cfg { stc with file := stc.file.map (saveAll stc 0 stc.samplers) } =
          { stc with file := stc.file.map (saveAll stc 0 stc.samplers), inits := List.zipWith (fun s i => s.chain.getLastD i) stc.samplers stc.inits,
                     samplers := stc.samplers.map Sampler.reset, nburn := stc.ncomplete, burnComplete := true } := by
        unfold burnStep; rw [if_pos hb]
      rw [hbs]
      have hall : ∀ x ∈ stc.trace, x.post = false := by
        intro x hx
        rw [htr, List.mem_append, List.mem_singleton] at hx
        rcases hx with hx | rfl
        · exact hI.early (by rw [← hbc]; exact hb.1) x hx
        · rw [hpost, ← hbc]; exact hb.1
      refine ⟨?_, by simpa using hlen, fun h => by cases h⟩
      intro e s hs
      have hs' : (stc.samplers.map Sampler.reset)[e]? = some s := hs
      rw [List.getElem?_map] at hs'
      rcases h0 : stc.samplers[e]? with _ | s0
      · rw [h0] at hs'; cases hs'
      · rw [h0] at hs'
        cases hs'
        obtain ⟨g1, g2⟩ := hsam e s0 h0
        refine ⟨?_, by show s0.count = stc.trace.length * _; rw [g2, htrl]⟩
        have hz : (stc.trace.filter fun x => x.post == true).length = 0 := by
          rw [List.length_eq_zero_iff, List.filter_eq_nil_iff]
          intro x hx
          rw [hall x hx]; decide
        show Stored _ _ _ _ ((stc.trace.filter fun x => x.post == true).length * _) _ _
        rw [hz, zero_mul]
        exact g1.reset
    · have hbs : burnStep cfg { stc with file := stc.file.map (saveAll stc 0 stc.samplers) } = { stc with file := stc.file.map (saveAll stc 0 stc.samplers) } := by
        unfold burnStep; rw [if_neg hb]
      rw [hbs]
      refine ⟨?_, hlen, ?_⟩
      · intro e s hs
        obtain ⟨g1, g2⟩ := hsam e s hs
        refine ⟨?_, by show s.count = stc.trace.length * _; rw [g2, htrl]⟩
        show Stored _ _ _ _ ((stc.trace.filter fun x => x.post == stc.burnComplete).length * _) _ _
        rw [hbc, hph]
        exact g1
      · intro h0 x hx
        have h0' : stc.burnComplete = false := h0
        have hx' : x ∈ stc.trace := hx
        rw [htr, List.mem_append, List.mem_singleton] at hx'
        rcases hx' with hx' | rfl
        · exact hI.early (by rw [← hbc]; exact h0') x hx'
        · rw [hpost, ← hbc]; exact h0'
  · rw [b2]; show stc.trace.getLast? = _; rw [htr]; simp
  · intro e s hs
    rw [b5] at hs
    have hs' : stc.checked[e]? = some s := hs
    have hck : stc.checked = stc.samplers := by rw [hchk, fr.samplers]
    rw [hck] at hs'
    obtain ⟨g1, g2⟩ := hsam e s hs'
    refine ⟨?_, by rw [b2]; show s.count = stc.trace.length * _; rw [g2, htrl]⟩
    unfold phaseRounds
    rw [b2]
    show Stored _ _ _ _ ((stc.trace.filter fun x => x.post == c.post).length * _) _ _
    rw [hpost, hph]
    exact g1
  · rw [b5]
    show stc.checked.length = _
    rw [hchk, ← fr.samplers, hlen]
  · rw [b4, b5]
    show stc.table = some (stc.checked.map _, stc.checked.map _)
    rw [htab, hchk]

theorem TableInv.start {cfg : McConfig} {lp : List ℝ → Fl} {moves : Nat → Nat → Pos → Move} {p0 : List Pos} {file : Option H5} {prev : Option (List Ens × List (List (List Fl)))}
    (hp : p0.length = cfg.ensembles) : TableInv cfg lp moves (startFresh p0 cfg.nwalkers file prev) := by
  refine ⟨?_, by simp [startFresh, hp], by intro _ c hc; simp [startFresh] at hc⟩
  intro e s hs
  have hs' : (p0.map fun _ => (⟨[], [], List.replicate cfg.nwalkers 0, 0⟩ : Sampler))[e]? = some s := hs
  rw [List.getElem?_map] at hs'
  rcases h0 : p0[e]? with _ | p
  · rw [h0] at hs'; cases hs'
  · rw [h0] at hs'
    cases hs'
    exact ⟨⟨by simp [phaseRounds, startFresh], rfl, by simp, by simp, by simp [phaseRounds, startFresh], by simp⟩, by simp [startFresh]⟩

theorem tableInv_loop {itime : List Ens → List Fl} {moves : Nat → Nat → Pos → Move} {cfg : McConfig} {lp : List ℝ → Fl} (hm : HonestMoves cfg.ndim cfg.nwalkers lp moves)
    (hci : 1 ≤ cfg.checkinterval) : ∀ (n : Nat) (st st' : McState) (b : Bool), TableInv cfg lp moves st → mcmcLoop itime moves cfg (n + 1) st = .ok (st', b) →
      TableInv cfg lp moves st' ∧ ∃ c, LastCheck cfg lp moves st' c := by
  intro n
  induction n with
  | zero =>
    intro st st' b hI h
    unfold mcmcLoop at h
    rcases hr : mcmcRound itime moves cfg st with e | st1
    · rw [hr] at h; cases h
    · rw [hr] at h
      simp only at h
      split at h
      · cases h; exact hI.round hm hci hr
      · unfold mcmcLoop at h; cases h; exact hI.round hm hci hr
  | succ n ih =>
    intro st st' b hI h
    unfold mcmcLoop at h
    rcases hr : mcmcRound itime moves cfg st with e | st1
    · rw [hr] at h; cases h
    · rw [hr] at h
      simp only at h
      split at h
      · cases h; exact hI.round hm hci hr
      · exact ih st1 st' b (hI.round hm hci hr).1 h

/-! ## The table -/

/-- Where the numbers of the samplers end up in the table before thinning. -/
theorem buildFrame_layout {cfg : McConfig} {lp : List ℝ → Fl} {moves : Nat → Nat → Pos → Move} (ss : List Sampler) (hne : ss ≠ []) (ns : Nat)
    (hnd : 0 < cfg.ndim) (hs : ∀ e s, ss[e]? = some s → Stored cfg.ndim cfg.nwalkers lp moves ns e s) :
    (∀ d, d < cfg.ndim → ∃ col, (buildFrame (ss.map (chainT cfg.ndim cfg.nwalkers)) (ss.map (logProbT cfg.nwalkers))).cols[d]? = some col ∧
      col.length = cfg.nwalkers * (ss.length * ns) ∧
      ∀ (e w k : Nat) s p row x, ss[e]? = some s → s.chain[k]? = some p → p[w]? = some row → row[d]? = some x → col[w * (ss.length * ns) + (e * ns + k)]? = some x) ∧
    (buildFrame (ss.map (chainT cfg.ndim cfg.nwalkers)) (ss.map (logProbT cfg.nwalkers))).cols.length = cfg.ndim ∧
    (buildFrame (ss.map (chainT cfg.ndim cfg.nwalkers)) (ss.map (logProbT cfg.nwalkers))).ln.length = cfg.nwalkers * (ss.length * ns) ∧
    (∀ (e w k : Nat) s p row, ss[e]? = some s → s.chain[k]? = some p → p[w]? = some row →
      (buildFrame (ss.map (chainT cfg.ndim cfg.nwalkers)) (ss.map (logProbT cfg.nwalkers))).ln[w * (ss.length * ns) + (e * ns + k)]? = some (lp row)) := by
  have hmem : ∀ s ∈ ss, ∃ e, Stored cfg.ndim cfg.nwalkers lp moves ns e s := by
    intro s h
    obtain ⟨e, he, rfl⟩ := List.getElem_of_mem h
    exact ⟨e, hs e _ (List.getElem?_eq_getElem he)⟩
  have hnd' : (((ss.map (chainT cfg.ndim cfg.nwalkers)).headD []).length) = cfg.ndim := by
    cases ss with
    | nil => exact absurd rfl hne
    | cons s ss => simp [chainT]
  have hnw' : ((((ss.map (chainT cfg.ndim cfg.nwalkers)).headD []).headD []).length) = cfg.nwalkers := by
    cases ss with
    | nil => exact absurd rfl hne
    | cons s ss =>
      obtain ⟨k, hk⟩ : ∃ k, cfg.ndim = k + 1 := ⟨cfg.ndim - 1, by omega⟩
      simp [chainT, hk, List.range_succ_eq_map]
  have hTd : ∀ (s : Sampler) (d w : Nat), d < cfg.ndim → w < cfg.nwalkers → (((chainT cfg.ndim cfg.nwalkers s).getD d []).getD w []) = s.chain.map fun p => (p.getD w []).getD d 0 := by
    intro s d w hd hw
    simp [chainT, List.getD_eq_getElem?_getD, List.getElem?_map, List.getElem?_range hd, List.getElem?_range hw]
  have hLw : ∀ (s : Sampler) (w : Nat), w < cfg.nwalkers → ((logProbT cfg.nwalkers s).getD w []) = s.logProb.map fun l => l.getD w .nan := by
    intro s w hw
    simp [logProbT, List.getD_eq_getElem?_getD, List.getElem?_map, List.getElem?_range hw]
  have hcollen : ∀ d w, d < cfg.ndim → w < cfg.nwalkers → ((ss.map (chainT cfg.ndim cfg.nwalkers)).flatMap fun e => (e.getD d []).getD w []).length = ss.length * ns := by
    intro d w hd hw
    rw [flatMap_length_const _ ns]
    · simp
    · intro e he
      obtain ⟨s, h1, rfl⟩ := List.mem_map.1 he
      obtain ⟨e0, h2⟩ := hmem s h1
      rw [hTd s d w hd hw, List.length_map, h2.len]
  have hlnlen : ∀ w, w < cfg.nwalkers → ((ss.map (logProbT cfg.nwalkers)).flatMap fun l => l.getD w []).length = ss.length * ns := by
    intro w hw
    rw [flatMap_length_const _ ns]
    · simp
    · intro e he
      obtain ⟨s, h1, rfl⟩ := List.mem_map.1 he
      obtain ⟨e0, h2⟩ := hmem s h1
      rw [hLw s w hw, List.length_map, h2.ln, List.length_map, h2.len]
  have hidx : ∀ (e k : Nat) s p, ss[e]? = some s → s.chain[k]? = some p → k < ns ∧ e < ss.length ∧ e * ns + k < ss.length * ns := by
    intro e k s p h1 h2
    have hk : k < ns := by rw [← (hs e s h1).len]; exact (List.getElem?_eq_some_iff.1 h2).1
    have he : e < ss.length := (List.getElem?_eq_some_iff.1 h1).1
    refine ⟨hk, he, ?_⟩
    calc e * ns + k < e * ns + ns := by omega
      _ = (e + 1) * ns := by ring
      _ ≤ ss.length * ns := Nat.mul_le_mul_right _ he
  have hwl : ∀ (e k w : Nat) s p row, ss[e]? = some s → s.chain[k]? = some p → p[w]? = some row → w < cfg.nwalkers := by
    intro e k w s p row h1 h2 h3
    rw [← (hs e s h1).walkers p (List.mem_of_getElem? h2)]
    exact (List.getElem?_eq_some_iff.1 h3).1
  refine ⟨?_, by unfold buildFrame; simp only; rw [List.length_map, List.length_range, hnd'], ?_, ?_⟩
  · intro d hd
    refine ⟨(List.range cfg.nwalkers).flatMap fun w => (ss.map (chainT cfg.ndim cfg.nwalkers)).flatMap fun e => (e.getD d []).getD w [], ?_, ?_, ?_⟩
    · unfold buildFrame
      simp only
      rw [hnd', hnw', List.getElem?_map, List.getElem?_range hd]
      rfl
    · rw [flatMap_length_const _ (ss.length * ns), List.length_range]
      intro w hw
      exact hcollen d w hd (List.mem_range.1 hw)
    · intro e w k s p row x h1 h2 h3 h4
      obtain ⟨hk, he, hlt⟩ := hidx e k s p h1 h2
      have hw := hwl e k w s p row h1 h2 h3
      rw [flatMap_getElem?_const _ (ss.length * ns) _ (fun w hw => hcollen d w hd (List.mem_range.1 hw)) w _ hlt, List.getElem?_range hw, Option.bind_some,
        flatMap_getElem?_const _ ns _ ?_ e k hk, List.getElem?_map, h1]
      · simp only [Option.map_some, Option.bind_some]
        rw [hTd s d w hd hw, List.getElem?_map, h2]
        simp [List.getD_eq_getElem?_getD, h3, h4]
      · intro e' he'
        obtain ⟨s', h5, rfl⟩ := List.mem_map.1 he'
        obtain ⟨e0, h6⟩ := hmem s' h5
        rw [hTd s' d w hd hw, List.length_map, h6.len]
  · unfold buildFrame
    simp only
    rw [hnw', flatMap_length_const _ (ss.length * ns), List.length_range]
    intro w hw
    exact hlnlen w (List.mem_range.1 hw)
  · intro e w k s p row h1 h2 h3
    obtain ⟨hk, he, hlt⟩ := hidx e k s p h1 h2
    have hw := hwl e k w s p row h1 h2 h3
    unfold buildFrame
    simp only
    rw [hnw', flatMap_getElem?_const _ (ss.length * ns) _ (fun w hw => hlnlen w (List.mem_range.1 hw)) w _ hlt, List.getElem?_range hw, Option.bind_some,
      flatMap_getElem?_const _ ns _ ?_ e k hk, List.getElem?_map, h1]
    · simp only [Option.map_some, Option.bind_some]
      rw [hLw s w hw, List.getElem?_map, (hs e s h1).ln, List.getElem?_map, h2]
      simp [List.getD_eq_getElem?_getD, h3]
    · intro e' he'
      obtain ⟨s', h5, rfl⟩ := List.mem_map.1 he'
      obtain ⟨e0, h6⟩ := hmem s' h5
      rw [hLw s' w hw, List.length_map, h6.ln, List.length_map, h6.len]

end Radvel
