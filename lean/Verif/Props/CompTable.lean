import Verif.Model.CompTable
import Mathlib.Data.EReal.Basic
import Mathlib.Tactic.Linarith
import Mathlib.Tactic.NormNum

/-!
# C75: the table of model comparisons
-/

namespace Radvel

/-- The number a float stands for; nan is put last. -/
noncomputable def Fl.rank : Fl → EReal
  | .fin x => x
  | .pos => ⊤
  | .neg => ⊥
  | .nan => ⊤

open Classical in
/-- Specification: the verdict on a model whose AICc is `d` above the best one (Burnham & Anderson 2004). -/
noncomputable def verdictOf (d : Fl) : Verdict :=
  if (Fl.fin 10).lt d then .ruledOut
  else if (Fl.fin 4).lt d then .strongly
  else if (Fl.fin 2).lt d then .somewhat
  else if (Fl.fin 0).lt d then .nearly
  else .favored

/-- Specification: the verdict a reader finds for row `i`: the last one at or above it. -/
def lastLabel {β : Type} (rows : List (TableRow β)) (i : Nat) : Option Verdict := ((rows.take (i + 1)).filterMap TableRow.label).getLast?

theorem rank_le {a b : Fl} (ha : a ≠ .nan) (hb : b ≠ .nan) : ¬ b.lt a ↔ a.rank ≤ b.rank := by
  cases a <;> cases b <;> simp_all [Fl.lt, Fl.rank]

open Classical in
theorem sortStats_eq {β : Type} (stats : List (β × Fl)) (hn : ∀ m ∈ stats, m.2 ≠ .nan) :
    sortStats stats = stats.mergeSort fun a b => decide (a.2.rank ≤ b.2.rank) := by
  unfold sortStats
  have := List.map_mergeSort (r := fun (a b : β × Fl) => decide (¬ b.2.lt a.2)) (s := fun a b => decide (a.2.rank ≤ b.2.rank)) (f := id) (l := stats) ?_
  · simpa using this
  · intro a ha b hb
    simp only [id, decide_eq_decide]
    exact rank_le (hn a ha) (hn b hb)

theorem mem_tableLoop {β : Type} (mn : Fl) : ∀ (l : List (β × Fl)) (i t : Nat), (tableLoop mn i t l).map (fun r => (r.model, r.aicc)) = l ∧ ∀ r ∈ tableLoop mn i t l, r.delta = r.aicc.sub mn := by
  intro l
  induction l with
  | nil => intro i t; simp [tableLoop]
  | cons m l ih =>
    intro i t
    obtain ⟨h1, h2⟩ := ih (i + 1) (tableRow mn i t m).1
    have h3 : (tableRow mn i t m).2.model = m.1 ∧ (tableRow mn i t m).2.aicc = m.2 ∧ (tableRow mn i t m).2.delta = m.2.sub mn := by
      unfold tableRow
      simp only []
      split <;> exact ⟨rfl, rfl, rfl⟩
    unfold tableLoop
    refine ⟨by rw [List.map_cons, h1, h3.1, h3.2.1], ?_⟩
    intro r hr
    rcases List.mem_cons.1 hr with rfl | hr
    · rw [h3.2.1]; exact h3.2.2
    · exact h2 r hr

/-- C75, the order of the rows: the table lists the first 50 of all models sorted by AICc, models with equal AICc in the order given, and every row shows the difference to the smallest AICc of all. -/
theorem C75_sorted {β : Type} (stats : List (β × Fl)) (hn : ∀ m ∈ stats, m.2 ≠ .nan) (rows : List (TableRow β)) (h : tabComparison (some stats) = some rows) :
    ∃ sorted best, sorted.Perm stats ∧ sorted.Pairwise (fun a b => a.2.rank ≤ b.2.rank) ∧ (∀ a b, [a, b].Sublist stats → a.2.rank ≤ b.2.rank → [a, b].Sublist sorted) ∧
      rows.map (fun r => (r.model, r.aicc)) = sorted.take 50 ∧ best ∈ stats ∧ (∀ m ∈ stats, best.2.rank ≤ m.2.rank) ∧ ∀ r ∈ rows, r.delta = r.aicc.sub best.2 := by
  unfold tabComparison at h
  simp only [] at h
  have hs := sortStats_eq stats hn
  have trans : ∀ a b c : β × Fl, decide (a.2.rank ≤ b.2.rank) = true → decide (b.2.rank ≤ c.2.rank) = true → decide (a.2.rank ≤ c.2.rank) = true := by
    intro a b c h1 h2
    simp only [decide_eq_true_eq] at *
    exact h1.trans h2
  have total : ∀ a b : β × Fl, (decide (a.2.rank ≤ b.2.rank) || decide (b.2.rank ≤ a.2.rank)) = true := by
    intro a b
    simp only [Bool.or_eq_true, decide_eq_true_eq]
    exact le_total _ _
  have hp : (sortStats stats).Perm stats := by rw [hs]; exact List.mergeSort_perm _ _
  have hsort : (sortStats stats).Pairwise fun a b => a.2.rank ≤ b.2.rank := by
    rw [hs]
    exact (List.pairwise_mergeSort (le := fun (a b : β × Fl) => decide (a.2.rank ≤ b.2.rank)) trans total stats).imp fun h => by simpa using h
  rcases hl : sortStats stats with _ | ⟨m, t⟩
  · rw [hl] at h; cases h
  rw [hl] at h
  simp only [Option.some.injEq] at h
  obtain ⟨h1, h2⟩ := mem_tableLoop m.2 ((m :: t).take 50) 0 0
  refine ⟨m :: t, m, hl ▸ hp, hl ▸ hsort, ?_, by rw [← h]; exact h1, hp.subset (by rw [hl]; simp), ?_, by rw [← h]; exact h2⟩
  · intro a b hab hle
    rw [← hl, hs]
    exact List.pair_sublist_mergeSort (le := fun (a b : β × Fl) => decide (a.2.rank ≤ b.2.rank)) trans total (by simpa using hle) hab
  · intro x hx
    have : x ∈ m :: t := by rw [← hl]; exact hp.symm.subset hx
    rcases List.mem_cons.1 this with rfl | hx'
    · exact le_refl _
    · rw [hl] at hsort
      exact (List.pairwise_cons.1 hsort).1 x hx'

/-- The verdict after `t` advances of the trigger. -/
def triggered : Nat → Verdict
  | 0 => .favored
  | 1 => .nearly
  | 2 => .somewhat
  | 3 => .strongly
  | _ => .ruledOut

theorem exceeds_iff (d : Fl) (t : Nat) : exceeds d t = true ↔ (t = 0 ∧ (Fl.fin 0).lt d) ∨ (t = 1 ∧ (Fl.fin 2).lt d) ∨ (t = 2 ∧ (Fl.fin 4).lt d) ∨ (t = 3 ∧ (Fl.fin 10).lt d) := by
  unfold exceeds aicLevels
  match t with
  | 0 => simp
  | 1 => simp
  | 2 => simp
  | 3 => simp
  | n + 4 => simp

theorem lt_weaken {x y : ℝ} (h : x ≤ y) {d : Fl} (hd : (Fl.fin y).lt d) : (Fl.fin x).lt d := by
  cases d with
  | fin z => exact lt_of_le_of_lt h hd
  | _ => exact hd

theorem advance_eq (d : Fl) (t : Nat) : advance d t = if exceeds d t = true then advance d (t + 1) else t := by
  rw [advance]
  split <;> rfl

open Classical in
theorem advance_spec (d : Fl) (t : Nat) (ht : t ≤ 4) (hb : ∀ s, s < t → exceeds d s = true) :
    advance d t ≤ 4 ∧ t ≤ advance d t ∧ triggered (advance d t) = verdictOf d ∧ ∀ s, s < advance d t → exceeds d s = true := by
  induction h : 4 - t generalizing t with
  | zero =>
    have : t = 4 := by omega
    subst this
    have e4 := exceeds_iff d 4
    simp at e4
    rw [advance_eq, e4]
    have h10 := hb 3 (by omega)
    rw [exceeds_iff] at h10
    simp at h10
    refine ⟨le_refl _, le_refl _, ?_, hb⟩
    simp [triggered, verdictOf, h10]
  | succ n ih =>
    rw [advance_eq]
    by_cases he : exceeds d t = true
    · rw [if_pos he]
      obtain ⟨h1, h2, h3, h4⟩ := ih (t + 1) (by omega) (by
        intro s hs
        rcases Nat.lt_succ_iff_lt_or_eq.1 hs with h | rfl
        · exact hb s h
        · exact he) (by omega)
      exact ⟨h1, by omega, h3, h4⟩
    · rw [if_neg he]
      refine ⟨ht, le_refl _, ?_, hb⟩
      have w1 : (Fl.fin 10).lt d → (Fl.fin 4).lt d := lt_weaken (by norm_num)
      have w2 : (Fl.fin 4).lt d → (Fl.fin 2).lt d := lt_weaken (by norm_num)
      have w3 : (Fl.fin 2).lt d → (Fl.fin 0).lt d := lt_weaken (by norm_num)
      rw [exceeds_iff] at he
      have hp : ∀ s, s + 1 = t → exceeds d s = true := fun s hs => hb s (by omega)
      match t, ht, he, hp with
      | 0, _, he, _ => simp at he; simp [triggered, verdictOf, he, mt w3 he, mt w2 (mt w3 he), mt w1 (mt w2 (mt w3 he))]
      | 1, _, he, hp =>
        have := (exceeds_iff _ _).1 (hp 0 rfl)
        simp at he this
        simp [triggered, verdictOf, he, this, mt w2 he, mt w1 (mt w2 he)]
      | 2, _, he, hp =>
        have := (exceeds_iff _ _).1 (hp 1 rfl)
        simp at he this
        simp [triggered, verdictOf, he, this, mt w1 he]
      | 3, _, he, hp =>
        have := (exceeds_iff _ _).1 (hp 2 rfl)
        simp at he this
        simp [triggered, verdictOf, he, this]
      | 4, _, _, _ => omega
      | n + 5, _, _, _ => omega

theorem tableRow_fst {β : Type} (mn : Fl) (i t : Nat) (m : β × Fl) : (tableRow mn i t m).1 = advance (m.2.sub mn) t := by
  rw [advance_eq]
  unfold tableRow
  simp only []
  split <;> rfl

theorem sub_mono {a b mn : Fl} (ha : a ≠ .nan) (hb : b ≠ .nan) (hle : a.rank ≤ b.rank) {x : ℝ} (h : (Fl.fin x).lt (a.sub mn)) : (Fl.fin x).lt (b.sub mn) := by
  have key : ∀ u v : Fl, (u + v) = Fl.add u v := fun _ _ => rfl
  cases a <;> cases b <;> cases mn <;> simp_all [Fl.sub, Fl.minus, Fl.add, Fl.lt, Fl.rank]
  linarith

theorem exceeds_mono {a b mn : Fl} (ha : a ≠ .nan) (hb : b ≠ .nan) (hle : a.rank ≤ b.rank) (s : Nat) (h : exceeds (a.sub mn) s = true) : exceeds (b.sub mn) s = true := by
  rw [exceeds_iff] at h ⊢
  rcases h with ⟨h1, h⟩ | ⟨h1, h⟩ | ⟨h1, h⟩ | ⟨h1, h⟩
  · exact .inl ⟨h1, sub_mono ha hb hle h⟩
  · exact .inr (.inl ⟨h1, sub_mono ha hb hle h⟩)
  · exact .inr (.inr (.inl ⟨h1, sub_mono ha hb hle h⟩))
  · exact .inr (.inr (.inr ⟨h1, sub_mono ha hb hle h⟩))

/-- The loop from row `i` on, when the last label so far is `triggered t`. -/
theorem tableLoop_labels {β : Type} (mn : Fl) : ∀ (l : List (β × Fl)) (i t : Nat), t ≤ 4 → (∀ m ∈ l, m.2 ≠ .nan) → l.Pairwise (fun a b => a.2.rank ≤ b.2.rank) →
    (∀ m ∈ l, ∀ s, s < t → exceeds (m.2.sub mn) s = true) → 0 < i →
    ∀ (j : Nat) r, (tableLoop mn i t l)[j]? = some r →
      (((tableLoop mn i t l).take (j + 1)).filterMap TableRow.label).getLast?.getD (triggered t) = verdictOf r.delta ∧ (r.hline = true ↔ r.label ≠ none ∨ i + j = 1) := by
  intro l
  induction l with
  | nil => intro i t _ _ _ _ _ j r h; simp [tableLoop] at h
  | cons m l ih =>
    intro i t ht hn hs hb hi j r hr
    obtain ⟨h1, h2, h3, h4⟩ := advance_spec (m.2.sub mn) t ht (hb m (by simp))
    obtain ⟨hs1, hs2⟩ := List.pairwise_cons.1 hs
    unfold tableLoop at hr ⊢
    rw [tableRow_fst] at hr ⊢
    -- the first row
    have hrow : (tableRow mn i t m).2.delta = m.2.sub mn ∧ (tableRow mn i t m).2.label = (if advance (m.2.sub mn) t = t then none else some (triggered (advance (m.2.sub mn) t))) ∧
        ((tableRow mn i t m).2.hline = true ↔ (tableRow mn i t m).2.label ≠ none ∨ i = 1) := by
      have hi0 : i ≠ 0 := by omega
      unfold tableRow
      simp only [hi0, if_false]
      by_cases he : exceeds (m.2.sub mn) t = true
      · rw [if_pos he]
        have ha := advance_eq (m.2.sub mn) t
        rw [if_pos he] at ha
        have hgt : t + 1 ≤ advance (m.2.sub mn) t := by
          have hb' : ∀ s, s < t + 1 → exceeds (m.2.sub mn) s = true := by
            intro s hs
            rcases Nat.lt_succ_iff_lt_or_eq.1 hs with h | rfl
            · exact hb m (by simp) s h
            · exact he
          have ht' : t + 1 ≤ 4 := by
            rw [exceeds_iff] at he; omega
          rw [ha]
          exact (advance_spec _ _ ht' hb').2.1
        rw [if_neg (by omega)]
        have hlab : aicMessages[advance (m.2.sub mn) (t + 1) - 1]? = some (triggered (advance (m.2.sub mn) t)) := by
          rw [← ha]
          generalize advance (m.2.sub mn) t = u at *
          match u, h1, hgt with
          | 0, _, h => omega
          | 1, _, _ => rfl
          | 2, _, _ => rfl
          | 3, _, _ => rfl
          | 4, _, _ => rfl
          | n + 5, h, _ => omega
        refine ⟨rfl, hlab, ?_⟩
        simp only [true_iff]
        left
        rw [hlab]
        simp
      · rw [if_neg he]
        have ha := advance_eq (m.2.sub mn) t
        rw [if_neg he] at ha
        rw [if_pos ha]
        refine ⟨rfl, rfl, ?_⟩
        simp
    obtain ⟨r1, r2, r3⟩ := hrow
    cases j with
    | zero =>
      simp only [List.getElem?_cons_zero, Option.some.injEq] at hr
      subst hr
      refine ⟨?_, by simpa using r3⟩
      simp only [Nat.zero_add, List.take_succ_cons, List.take_zero, List.filterMap_cons, List.filterMap_nil, r2, r1]
      rw [← h3]
      split_ifs with h
      · simp [h]
      · simp
    | succ j =>
      simp only [List.getElem?_cons_succ] at hr
      obtain ⟨i1, i2⟩ := ih (i + 1) (advance (m.2.sub mn) t) h1 (fun x hx => hn x (by simp [hx])) hs2
        (fun x hx s hs => exceeds_mono (hn m (by simp)) (hn x (by simp [hx])) (hs1 x hx) s (h4 s hs)) (by omega) j r hr
      refine ⟨?_, by rw [i2]; constructor <;> rintro (h | h) <;> first | exact Or.inl h | (right; omega)⟩
      rw [← i1]
      simp only [List.take_succ_cons, List.filterMap_cons, r2]
      split_ifs with h
      · simp [h]
      · simp only [List.getLast?_cons]
        simp

/-- C75, the verdicts: a reader who looks for the last verdict at or above a row finds the one for that row's difference; rules are drawn exactly before rows with a new verdict and before the second row. -/
theorem C75_verdicts {β : Type} (stats : List (β × Fl)) (hn : ∀ m ∈ stats, m.2 ≠ .nan) (rows : List (TableRow β)) (h : tabComparison (some stats) = some rows) (i : Nat) (r : TableRow β)
    (hr : rows[i]? = some r) : lastLabel rows i = some (verdictOf r.delta) ∧ (r.hline = true ↔ (r.label ≠ none ∧ 0 < i) ∨ i = 1) ∧ (i = 0 → r.label = some .favored) := by
  obtain ⟨sorted, best, hp, hsort, _, hrows, _⟩ := C75_sorted stats hn rows h
  unfold tabComparison at h
  simp only [] at h
  rcases hl : sortStats stats with _ | ⟨m, t⟩
  · rw [hl] at h; cases h
  rw [hl] at h
  simp only [Option.some.injEq] at h
  rw [show (m :: t).take 50 = m :: t.take 49 from rfl] at h
  have hmt : (m :: t.take 49) = sorted.take 50 := by
    rw [← hrows, ← h]
    exact (mem_tableLoop m.2 _ 0 0).1.symm
  have hs' : (m :: t.take 49).Pairwise fun a b => a.2.rank ≤ b.2.rank := by rw [hmt]; exact hsort.sublist (List.take_sublist _ _)
  have hn' : ∀ x ∈ m :: t.take 49, x.2 ≠ .nan := by
    intro x hx
    rw [hmt] at hx
    exact hn x (hp.subset (List.mem_of_mem_take hx))
  have hself : ∀ s, exceeds (m.2.sub m.2) s = false := by
    intro s
    have hm := hn' m (by simp)
    unfold exceeds aicLevels
    have key : ¬ (Fl.fin 0).lt (m.2.sub m.2) := by
      have key : ∀ u v : Fl, (u + v) = Fl.add u v := fun _ _ => rfl
      cases hm2 : m.2 <;> simp_all [Fl.sub, Fl.minus, Fl.add, Fl.lt]
    match s with
    | 0 => simpa using key
    | 1 => simpa using fun h => key (lt_weaken (by norm_num) h)
    | 2 => simpa using fun h => key (lt_weaken (by norm_num) h)
    | 3 => simpa using fun h => key (lt_weaken (by norm_num) h)
    | n + 4 => simp
  have hrow : tableRow m.2 0 0 m = (0, { hline := false, label := some .favored, model := m.1, aicc := m.2, delta := m.2.sub m.2 }) := by
    unfold tableRow
    simp [hself]
  unfold tableLoop at h
  rw [hrow] at h
  simp only [] at h
  subst h
  cases i with
  | zero =>
    simp only [List.getElem?_cons_zero, Option.some.injEq] at hr
    subst hr
    refine ⟨?_, by simp, fun _ => rfl⟩
    have hv : verdictOf (m.2.sub m.2) = .favored := by
      have hw : ∀ x : ℝ, 0 ≤ x → ¬ (Fl.fin x).lt (m.2.sub m.2) := by
        intro x hx hlt
        have := hself 0
        have h0 : exceeds (m.2.sub m.2) 0 = true := by rw [exceeds_iff]; simp [lt_weaken hx hlt]
        rw [this] at h0; cases h0
      simp [verdictOf, hw]
    simp [lastLabel, hv]
  | succ j =>
    simp only [List.getElem?_cons_succ] at hr
    obtain ⟨hs1, hs2⟩ := List.pairwise_cons.1 hs'
    obtain ⟨i1, i2⟩ := tableLoop_labels m.2 (t.take 49) 1 0 (by omega) (fun x hx => hn' x (by simp [hx])) hs2 (by simp) (by omega) j r hr
    refine ⟨?_, by rw [i2]; constructor <;> rintro (h | h) <;> first | exact Or.inl ⟨h, by omega⟩ | exact Or.inl h.1 | (right; omega), by simp⟩
    unfold lastLabel
    rw [← i1]
    simp only [List.take_succ_cons, List.filterMap_cons, List.getLast?_cons, triggered]

/-- C75 is false if an AICc is nan: a model without a likelihood that comes first in the list is called the favoured one, and the other has no verdict although its AICc is a number. -/
theorem C75_nan_violated (x : ℝ) : ∃ r s, tabComparison (some [("bad", Fl.nan), ("good", Fl.fin x)]) = some [r, s] ∧ r.model = "bad" ∧ r.label = some .favored ∧ s.model = "good" ∧ s.label = none ∧
    s.delta = .nan := by
  have hs : sortStats [("bad", Fl.nan), ("good", Fl.fin x)] = [("bad", Fl.nan), ("good", Fl.fin x)] := by
    unfold sortStats
    apply List.mergeSort_of_pairwise
    simp [Fl.lt]
  have he : ∀ t, exceeds .nan t = false := by
    intro t
    have := exceeds_iff .nan t
    simpa [Fl.lt] using this
  have k1 : Fl.sub .nan .nan = .nan := rfl
  have k2 : (Fl.fin x).sub .nan = .nan := rfl
  unfold tabComparison
  simp only [hs, List.take, tableLoop, tableRow, k1, k2, he]
  exact ⟨_, _, rfl, rfl, rfl, rfl, rfl, rfl⟩

/-- Non-vacuity of C75: five models, out of order, with a tie and an infinite AICc. -/
example : ∃ rows, tabComparison (some [("a", Fl.fin 15), ("b", Fl.fin 10), ("c", .pos), ("d", Fl.fin 13), ("e", Fl.fin 10)]) = some rows ∧ rows.length = 5 ∧
    ∀ m ∈ [("a", Fl.fin 15), ("b", Fl.fin 10), ("c", .pos), ("d", Fl.fin 13), ("e", Fl.fin 10)], m.2 ≠ Fl.nan := by
  rcases h : tabComparison (some [("a", Fl.fin 15), ("b", Fl.fin 10), ("c", .pos), ("d", Fl.fin 13), ("e", Fl.fin 10)]) with _ | rows
  · unfold tabComparison at h
    simp only [] at h
    split at h
    · rename_i hl
      have := congrArg List.length hl
      simp [sortStats] at this
    · cases h
  · refine ⟨rows, rfl, ?_, by simp⟩
    obtain ⟨sorted, _, hp, _, _, hrows, _⟩ := C75_sorted _ (by simp) rows h
    have := congrArg List.length hrows
    rw [List.length_map, List.length_take, hp.length_eq] at this
    simpa using this

end Radvel
