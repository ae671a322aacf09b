import Verif.Lemmas.Binning

/-!
# C50, C51: time binning
-/

namespace Radvel
open Real

/-- Example data: three observations in two bins of width 1, not given in time order. -/
noncomputable def binObs : List Pt := [⟨5, 1, 1⟩, ⟨0, 2, 1⟩, ⟨0.5, 4, 2⟩]

/-- `np.argsort` exists. -/
theorem exists_argsort : ∃ argsort, IsArgsort argsort := by
  refine ⟨fun l => l.mergeSort (fun a b => decide (a.t ≤ b.t)), fun l => ⟨List.mergeSort_perm _ _, ?_⟩⟩
  have := List.pairwise_mergeSort (le := fun a b : Pt => decide (a.t ≤ b.t)) (fun a b c h1 h2 => by simp at *; linarith)
    (fun a b => by simp; exact le_total _ _) l
  simpa using this

/-- C50: for a positive bin size and non-empty data with non-zero errors `timebin` stops after at most one turn per observation and returns, for some division of the data
into bins (every observation in exactly one, none as wide as the bin size), the inverse-variance weighted mean time and velocity of each bin and the error whose inverse
square is the bin's total inverse variance. -/
theorem C50_partition (argsort : List Pt → List Pt) (ha : IsArgsort argsort) (pts : List Pt) (hne : pts ≠ []) (b : ℝ) (hb : 0 < b) (he : ∀ p ∈ pts, p.err ≠ 0) :
    ∃ groups r, Grouping b pts groups ∧ (∀ fuel, pts.length < fuel → timebin argsort fuel pts b = some (.ok r)) ∧
      r.t = groups.map (fun g => some (wmean Pt.t g)) ∧ r.v = groups.map (fun g => some (wmean Pt.v g)) ∧
      r.err.map (fun e => 1 / e ^ 2) = groups.map invVar ∧ ∀ e ∈ r.err, 0 < e := by
  obtain ⟨h1, h2⟩ := ha pts
  have hg := groupsOf_grouping b hb _ h2
  have hg' : Grouping b pts (groupsOf b (argsort pts)) := ⟨hg.perm.trans h1, hg.nonempty, hg.narrow, hg.apart, hg.starts⟩
  have hne' : ∀ g ∈ groupsOf b (argsort pts), ∀ p ∈ g, p.err ≠ 0 := fun g hgm p hp => he p (hg'.perm.subset (List.mem_flatten.2 ⟨g, hgm, hp⟩))
  refine ⟨groupsOf b (argsort pts), _, hg', fun fuel hf => timebin_groups ha b hb pts hne fuel hf, ?_, ?_, ?_, ?_⟩
  · exact List.map_congr_left (fun g hgm => weighted_eq _ _ (hne' g hgm))
  · exact List.map_congr_left (fun g hgm => weighted_eq _ _ (hne' g hgm))
  · simp only [binAll, List.map_map]
    exact List.map_congr_left (fun g hgm => (binError_eq g (hg'.nonempty g hgm) (hne' g hgm)).2)
  · intro e hem
    simp only [binAll, List.mem_map] at hem
    obtain ⟨g, hgm, rfl⟩ := hem
    exact (binError_eq g (hg'.nonempty g hgm) (hne' g hgm)).1

/-- Non-vacuity of C50. -/
example : binObs ≠ [] ∧ (0 : ℝ) < 1 ∧ ∀ p ∈ binObs, p.err ≠ 0 := by simp [binObs]

/-- C50: a weighted mean lies within the data of its bin. -/
theorem C50_within (f : Pt → ℝ) (g : List Pt) (hne : g ≠ []) (he : ∀ p ∈ g, p.err ≠ 0) : (∃ p ∈ g, f p ≤ wmean f g) ∧ ∃ q ∈ g, wmean f g ≤ f q := by
  classical
  have hn : g.toFinset.Nonempty := by
    obtain ⟨p, hp⟩ := List.exists_mem_of_ne_nil g hne
    exact ⟨p, by simpa using hp⟩
  obtain ⟨p, hp, hmin⟩ := g.toFinset.exists_min_image f hn
  obtain ⟨q, hq, hmax⟩ := g.toFinset.exists_max_image f hn
  have := wmean_between f g hne he (f p) (f q) (fun x hx => ⟨hmin x (by simpa using hx), hmax x (by simpa using hx)⟩)
  exact ⟨⟨p, by simpa using hp, this.1⟩, q, by simpa using hq, this.2⟩

/-- C50: the total inverse variance is conserved. -/
theorem C50_conserved (argsort : List Pt → List Pt) (ha : IsArgsort argsort) (pts : List Pt) (hne : pts ≠ []) (b : ℝ) (hb : 0 < b) (he : ∀ p ∈ pts, p.err ≠ 0)
    (fuel : Nat) (r : Binned) (hr : timebin argsort fuel pts b = some (.ok r)) : (r.err.map (fun e => 1 / e ^ 2)).sum = invVar pts := by
  obtain ⟨groups, r', hg, h1, _, _, h4, _⟩ := C50_partition argsort ha pts hne b hb he
  have hmono : ∀ (f : Nat) ct out x, timebinLoop b (argsort pts) f ct out = some x → timebinLoop b (argsort pts) (f + 1) ct out = some x := by
    intro f
    induction f with
    | zero => intro ct out x h; cases h
    | succ f ih =>
      intro ct out x h
      unfold timebinLoop at h ⊢
      cases hp : (argsort pts)[ct]? with
      | none => rw [hp] at h; exact h
      | some p =>
        rw [hp] at h
        simp only at h ⊢
        cases ha : addBin ct out (inBin b p.t (argsort pts)) with
        | error e => rw [ha] at h; exact h
        | ok o => rw [ha] at h; exact ih _ _ _ h
  have hk : ∀ k, timebin argsort (fuel + k) pts b = some (.ok r) := by
    intro k
    induction k with
    | zero => exact hr
    | succ k ih => exact hmono _ _ _ _ ih
  have := hk (pts.length + 1)
  rw [h1 _ (by omega)] at this
  cases this
  rw [h4, invVar_flatten, invVar_perm hg.perm]

/-- C50: how `np.argsort` orders equal times makes no difference. -/
theorem C50_ties (a1 a2 : List Pt → List Pt) (h1 : IsArgsort a1) (h2 : IsArgsort a2) (pts : List Pt) (b : ℝ) (fuel : Nat) :
    timebin a1 fuel pts b = timebin a2 fuel pts b := by
  obtain ⟨p1, s1⟩ := h1 pts
  obtain ⟨p2, s2⟩ := h2 pts
  have hp : (a1 pts).Perm (a2 pts) := p1.trans p2.symm
  have ht : (a1 pts).map Pt.t = (a2 pts).map Pt.t := by
    refine List.Perm.eq_of_pairwise (le := (· ≤ ·)) (fun a b _ _ h h' => le_antisymm h h') ?_ ?_ (hp.map _)
    · rw [List.pairwise_map]; exact s1
    · rw [List.pairwise_map]; exact s2
  have hin : ∀ t0, (inBin b t0 (a1 pts)).Perm (inBin b t0 (a2 pts)) := fun t0 => hp.filter _
  have hw : ∀ (f : Pt → ℝ) (g g' : List Pt), g.Perm g' → weighted f g = weighted f g' := by
    classical
    intro f g g' h
    unfold weighted
    have e1 : (∃ p ∈ g, p.err = 0) ↔ ∃ p ∈ g', p.err = 0 := by simp only [h.mem_iff]
    have e2 : (g.map Pt.weight).sum = (g'.map Pt.weight).sum := (h.map _).sum_eq
    by_cases hz : ∃ p ∈ g, p.err = 0
    · rw [if_pos hz, if_pos (e1.1 hz)]
    · rw [if_neg hz, if_neg (fun h' => hz (e1.2 h')), e2, (h.map _).sum_eq]
  have he : ∀ (g g' : List Pt), g.Perm g' → binError g = binError g' := by
    classical
    intro g g' h
    unfold binError
    have e1 : (∃ p ∈ g, p.err = 0) ↔ ∃ p ∈ g', p.err = 0 := by simp only [h.mem_iff]
    by_cases hz : ∃ p ∈ g, p.err = 0
    · rw [if_pos hz, if_pos (e1.1 hz)]
    · rw [if_neg hz, if_neg (fun h' => hz (e1.2 h')), (h.map _).sum_eq]
  have key : ∀ (f : Nat) ct out, timebinLoop b (a1 pts) f ct out = timebinLoop b (a2 pts) f ct out := by
    intro f
    induction f with
    | zero => intro ct out; rfl
    | succ f ih =>
      intro ct out
      unfold timebinLoop
      have hc : ((a1 pts)[ct]?).map Pt.t = ((a2 pts)[ct]?).map Pt.t := by rw [← List.getElem?_map, ← List.getElem?_map, ht]
      cases e1 : (a1 pts)[ct]? with
      | none =>
        cases e2 : (a2 pts)[ct]? with
        | none => rfl
        | some q => rw [e1, e2] at hc; cases hc
      | some p =>
        cases e2 : (a2 pts)[ct]? with
        | none => rw [e1, e2] at hc; cases hc
        | some q =>
          rw [e1, e2] at hc
          simp only [Option.map_some, Option.some.injEq] at hc
          simp only [hc]
          have hadd : addBin ct out (inBin b q.t (a1 pts)) = addBin ct out (inBin b q.t (a2 pts)) := by
            unfold addBin
            rw [hw _ _ _ (hin q.t), hw _ _ _ (hin q.t), he _ _ (hin q.t)]
          rw [hadd, (hin q.t).length_eq]
          cases addBin ct out (inBin b q.t (a2 pts)) with
          | error e => rfl
          | ok o => exact ih _ _
  exact key fuel 0 none

/-- C50, outside its hypotheses: with a bin size that is not positive the loop never ends, whatever the data. -/
theorem C50_nonpositive (argsort : List Pt → List Pt) (ha : IsArgsort argsort) (pts : List Pt) (hne : pts ≠ []) (b : ℝ) (hb : b ≤ 0) (fuel : Nat) :
    timebin argsort fuel pts b = none := by
  have hl : 0 < (argsort pts).length := by rw [(ha pts).1.length_eq]; exact List.length_pos_iff.2 hne
  exact timebinLoop_stuck b hb _ _ (List.getElem?_eq_getElem hl) fuel none

/-- Non-vacuity of `C50_nonpositive`. -/
example : binObs ≠ [] ∧ (-1 : ℝ) ≤ 0 := by simp [binObs]

/-- C50, outside its hypotheses: without data the output lists are never assigned. -/
theorem C50_empty (argsort : List Pt → List Pt) (ha : IsArgsort argsort) (b : ℝ) (fuel : Nat) : timebin argsort (fuel + 1) [] b = some (.error .unboundLocalError) := by
  have h0 : argsort [] = [] := (ha []).1.eq_nil
  unfold timebin timebinLoop
  rw [h0]
  rfl

/-- C50, outside its hypotheses: a bin with an error of zero has nan for its time and velocity, and error zero. -/
theorem C50_zero_error (argsort : List Pt → List Pt) (ha : IsArgsort argsort) (pts : List Pt) (hne : pts ≠ []) (b : ℝ) (hb : 0 < b) (p : Pt) (hp : p ∈ pts) (h0 : p.err = 0)
    (fuel : Nat) (hf : pts.length < fuel) : ∃ r, timebin argsort fuel pts b = some (.ok r) ∧ none ∈ r.t ∧ none ∈ r.v ∧ 0 ∈ r.err := by
  classical
  have hm : p ∈ (groupsOf b (argsort pts)).flatten := by rw [groupsOf_flatten]; exact (ha pts).1.symm.subset hp
  obtain ⟨g, hg, hpg⟩ := List.mem_flatten.1 hm
  refine ⟨_, timebin_groups ha b hb pts hne fuel hf, ?_, ?_, ?_⟩
  · exact List.mem_map.2 ⟨g, hg, by unfold weighted; rw [if_pos ⟨p, hpg, h0⟩]⟩
  · exact List.mem_map.2 ⟨g, hg, by unfold weighted; rw [if_pos ⟨p, hpg, h0⟩]⟩
  · exact List.mem_map.2 ⟨g, hg, by unfold binError; rw [if_pos ⟨p, hpg, h0⟩]⟩

/-- Non-vacuity of `C50_zero_error`. -/
example : (⟨0, 1, 0⟩ : Pt) ∈ [(⟨0, 1, 0⟩ : Pt)] ∧ (⟨0, 1, 0⟩ : Pt).err = 0 := by simp

/-! ## C51 -/

theorem mem_uniqOrder (l : List String) (a : String) : a ∈ uniqOrder l ↔ a ∈ l := by
  induction l with
  | nil => simp [uniqOrder]
  | cons b l ih =>
    simp only [uniqOrder, List.mem_cons, List.mem_filter, decide_eq_true_eq, ih]
    by_cases h : a = b <;> simp [h]

theorem uniqOrder_nodup (l : List String) : (uniqOrder l).Nodup := by
  induction l with
  | nil => simp [uniqOrder]
  | cons b l ih =>
    simp only [uniqOrder, List.nodup_cons, List.mem_filter]
    exact ⟨by simp, ih.filter _⟩

theorem uniqOrder_order (l : List String) : (uniqOrder l).Pairwise (fun a b => l.idxOf a < l.idxOf b) := by
  induction l with
  | nil => simp [uniqOrder]
  | cons a l ih =>
    have hidx : ∀ b ∈ (uniqOrder l).filter (fun b => decide (b ≠ a)), (a :: l).idxOf b = l.idxOf b + 1 := by
      intro b hb
      have : b ≠ a := by simpa using (List.mem_filter.1 hb).2
      exact List.idxOf_cons_ne _ (Ne.symm this)
    refine List.pairwise_cons.2 ⟨?_, ?_⟩
    · intro b hb
      rw [hidx b hb, List.idxOf_cons_self]
      omega
    · refine (ih.filter _).imp_of_mem ?_
      intro x y hx hy h
      rw [hidx x hx, hidx y hy]
      omega

theorem ownData_ne_nil {data : List (String × Pt)} {tel : String} (h : tel ∈ data.map Prod.fst) : ownData data tel ≠ [] := by
  obtain ⟨d, hd, rfl⟩ := List.mem_map.1 h
  exact List.ne_nil_of_mem (a := d.2) (List.mem_map.2 ⟨d, List.mem_filter.2 ⟨hd, by simp⟩, rfl⟩)

theorem bintelsLoop_run {argsort : List Pt → List Pt} (ha : IsArgsort argsort) (b : ℝ) (hb : 0 < b) (data : List (String × Pt)) (fuel : Nat) (hf : data.length < fuel)
    (tels : List String) (ht : ∀ tel ∈ tels, tel ∈ data.map Prod.fst) : ∀ acc : TelBins, ∃ parts : List (String × Binned), parts.map Prod.fst = tels ∧
      (∀ p ∈ parts, timebin argsort fuel (ownData data p.1) b = some (.ok p.2) ∧ p.2.v.length = p.2.t.length ∧ p.2.err.length = p.2.t.length) ∧
      bintelsLoop argsort fuel b data acc tels = some (.ok ⟨acc.t ++ (parts.map (fun p => p.2.t)).flatten, acc.v ++ (parts.map (fun p => p.2.v)).flatten,
        acc.err ++ (parts.map (fun p => p.2.err)).flatten, acc.tel ++ (parts.map (fun p => List.replicate p.2.t.length p.1)).flatten⟩) := by
  induction tels with
  | nil => intro acc; exact ⟨[], rfl, by simp, by simp [bintelsLoop]⟩
  | cons tel tels ih =>
    intro acc
    have hne := ownData_ne_nil (ht tel (by simp))
    have hlen : (ownData data tel).length < fuel := by
      unfold ownData
      rw [List.length_map]
      exact lt_of_le_of_lt (List.length_filter_le _ _) hf
    have htb := timebin_groups ha b hb _ hne fuel hlen
    set B := binAll (groupsOf b (argsort (ownData data tel))) with hB
    obtain ⟨parts, h1, h2, h3⟩ := ih (fun t h => ht t (by simp [h])) ⟨acc.t ++ B.t, acc.v ++ B.v, acc.err ++ B.err, acc.tel ++ List.replicate B.t.length tel⟩
    refine ⟨(tel, B) :: parts, by simp [h1], ?_, ?_⟩
    · intro p hp
      rcases List.mem_cons.1 hp with rfl | hp
      · exact ⟨htb, by simp [hB, binAll], by simp [hB, binAll]⟩
      · exact h2 p hp
    · unfold bintelsLoop bintelsStep
      rw [htb]
      simp only
      rw [h3]
      simp

/-- C51: `bintels` returns one section per telescope, in the order of first appearance; the section of a telescope is what `timebin` returns for that telescope's own
observations, and every entry of it carries that telescope's label. -/
theorem C51_sections (argsort : List Pt → List Pt) (ha : IsArgsort argsort) (data : List (String × Pt)) (b : ℝ) (hb : 0 < b) (fuel : Nat) (hf : data.length < fuel) :
    ∃ parts : List (String × Binned), (∀ tel, tel ∈ parts.map Prod.fst ↔ tel ∈ data.map Prod.fst) ∧
      (parts.map Prod.fst).Pairwise (fun a c => (data.map Prod.fst).idxOf a < (data.map Prod.fst).idxOf c) ∧
      (∀ p ∈ parts, timebin argsort fuel ((data.filter (fun d => decide (d.1 = p.1))).map Prod.snd) b = some (.ok p.2) ∧ p.2.v.length = p.2.t.length ∧
        p.2.err.length = p.2.t.length) ∧
      bintels argsort fuel data b = some (.ok ⟨(parts.map (fun p => p.2.t)).flatten, (parts.map (fun p => p.2.v)).flatten, (parts.map (fun p => p.2.err)).flatten,
        (parts.map (fun p => List.replicate p.2.t.length p.1)).flatten⟩) := by
  suffices h : ∃ parts : List (String × Binned), parts.map Prod.fst = uniqOrder (data.map Prod.fst) ∧
      (∀ p ∈ parts, timebin argsort fuel (ownData data p.1) b = some (.ok p.2) ∧ p.2.v.length = p.2.t.length ∧ p.2.err.length = p.2.t.length) ∧
      bintels argsort fuel data b = some (.ok ⟨(parts.map (fun p => p.2.t)).flatten, (parts.map (fun p => p.2.v)).flatten, (parts.map (fun p => p.2.err)).flatten,
        (parts.map (fun p => List.replicate p.2.t.length p.1)).flatten⟩) by
    obtain ⟨parts, h1, h2, h3⟩ := h
    exact ⟨parts, fun tel => by rw [h1]; exact mem_uniqOrder _ _, by rw [h1]; exact uniqOrder_order _, h2, h3⟩
  unfold bintels
  by_cases h1 : (uniqOrder (data.map Prod.fst)).length = 1
  · rw [if_pos h1]
    obtain ⟨tel, htel⟩ := List.length_eq_one_iff.1 h1
    have hall : ∀ d ∈ data, d.1 = tel := by
      intro d hd
      have : d.1 ∈ uniqOrder (data.map Prod.fst) := (mem_uniqOrder _ _).2 (List.mem_map.2 ⟨d, hd, rfl⟩)
      rw [htel] at this
      simpa using this
    have hown : ownData data tel = data.map Prod.snd := by
      unfold ownData
      rw [List.filter_eq_self.2 (fun d hd => by simp [hall d hd])]
    have hne : data.map Prod.snd ≠ [] := by
      intro h
      have : data = [] := by simpa using h
      rw [this] at htel
      simp [uniqOrder] at htel
    have htb := timebin_groups ha b hb _ hne fuel (by simpa using hf)
    have hlab : data.map Prod.fst = List.replicate data.length tel := by
      rw [List.eq_replicate_iff]
      refine ⟨by simp, ?_⟩
      intro x hx
      obtain ⟨d, hd, rfl⟩ := List.mem_map.1 hx
      exact hall d hd
    set B := binAll (groupsOf b (argsort (data.map Prod.snd))) with hB
    have hle : B.t.length ≤ data.length := by
      have hs := (ha (data.map Prod.snd)).2
      have hg := groupsOf_grouping b hb _ hs
      have : ∀ gs : List (List Pt), (∀ g ∈ gs, g ≠ []) → gs.length ≤ gs.flatten.length := by
        intro gs
        induction gs with
        | nil => simp
        | cons g gs ih =>
          intro h
          have h1 := ih (fun g' hg' => h g' (by simp [hg']))
          have h2 := List.length_pos_iff.2 (h g (by simp))
          simp only [List.flatten_cons, List.length_append, List.length_cons]
          omega
      have h3 := this _ hg.nonempty
      rw [hg.perm.length_eq, (ha _).1.length_eq, List.length_map] at h3
      simpa [hB, binAll] using h3
    refine ⟨[(tel, B)], by simp [htel], ?_, ?_⟩
    · intro p hp
      rw [List.mem_singleton] at hp
      subst hp
      exact ⟨by rw [hown]; exact htb, by simp [hB, binAll], by simp [hB, binAll]⟩
    · rw [htb, hlab]
      simp [Nat.min_eq_left hle]
  · rw [if_neg h1]
    obtain ⟨parts, h2, h3, h4⟩ := bintelsLoop_run ha b hb data fuel hf _ (fun tel h => (mem_uniqOrder _ _).1 h) ⟨[], [], [], []⟩
    exact ⟨parts, h2, h3, by rw [h4]; simp⟩

theorem filter_sections (parts : List (String × Binned)) (hn : (parts.map Prod.fst).Nodup) (hl : ∀ p ∈ parts, p.2.err.length = p.2.t.length) (tel : String) :
    ((((parts.map (fun p => List.replicate p.2.t.length p.1)).flatten.zip (parts.map (fun p => p.2.err)).flatten).filter (fun x => decide (x.1 = tel))).map Prod.snd) =
      ((parts.filter (fun p => decide (p.1 = tel))).map (fun p => p.2.err)).flatten := by
  induction parts with
  | nil => rfl
  | cons p parts ih =>
    have hlp := hl p (by simp)
    have i := ih (List.Nodup.of_cons (by simpa using hn)) (fun q hq => hl q (by simp [hq]))
    simp only [List.map_cons, List.flatten_cons]
    rw [List.zip_append (by simp [hlp]), List.filter_append, List.map_append, i]
    have hz : ∀ (n : Nat) (e : List ℝ), e.length = n → ((List.replicate n p.1).zip e).filter (fun x => decide (x.1 = tel)) =
        if p.1 = tel then (List.replicate n p.1).zip e else [] := by
      intro n e he
      by_cases h : p.1 = tel
      · rw [if_pos h, List.filter_eq_self]
        rintro ⟨a, c⟩ hx
        have := (List.of_mem_zip hx).1
        simp [List.eq_of_mem_replicate this, h]
      · rw [if_neg h, List.filter_eq_nil_iff]
        rintro ⟨a, c⟩ hx
        have := (List.of_mem_zip hx).1
        simp [List.eq_of_mem_replicate this, h]
    rw [hz _ _ hlp]
    by_cases h : p.1 = tel
    · rw [if_pos h, List.map_snd_zip (by simp [hlp]), List.filter_cons_of_pos (by simp [h])]
      simp
    · rw [if_neg h, List.filter_cons_of_neg (by simp [h])]
      simp

/-- C51: for every telescope the inverse variances of the output entries with its label add up to the total inverse variance of its observations. -/
theorem C51_conserved (argsort : List Pt → List Pt) (ha : IsArgsort argsort) (data : List (String × Pt)) (b : ℝ) (hb : 0 < b) (fuel : Nat) (hf : data.length < fuel)
    (he : ∀ d ∈ data, d.2.err ≠ 0) : ∃ r, bintels argsort fuel data b = some (.ok r) ∧ r.tel.length = r.err.length ∧ r.t.length = r.err.length ∧ r.v.length = r.err.length ∧
      ∀ tel, (((r.tel.zip r.err).filter (fun x => decide (x.1 = tel))).map (fun x => 1 / x.2 ^ 2)).sum = invVar ((data.filter (fun d => decide (d.1 = tel))).map Prod.snd) := by
  obtain ⟨parts, h1, h0, h2, h3⟩ := C51_sections argsort ha data b hb fuel hf
  have hsum : ∀ f g : (String × Binned) → Nat, (∀ p ∈ parts, f p = g p) → (parts.map f).sum = (parts.map g).sum := fun f g h => by rw [List.map_congr_left h]
  refine ⟨_, h3, ?_, ?_, ?_, ?_⟩
  · simp only [List.length_flatten, List.map_map]
    exact hsum _ _ (fun p hp => by simp [(h2 p hp).2.2])
  · simp only [List.length_flatten, List.map_map]
    exact hsum _ _ (fun p hp => by simp [(h2 p hp).2.2])
  · simp only [List.length_flatten, List.map_map]
    exact hsum _ _ (fun p hp => by simp [(h2 p hp).2.2, (h2 p hp).2.1])
  · intro tel
    have hn : (parts.map Prod.fst).Nodup := h0.imp (fun h e => by rw [e] at h; exact lt_irrefl _ h)
    have hfil := filter_sections parts hn (fun p hp => (h2 p hp).2.2) tel
    have hmap : ∀ l : List (String × ℝ), l.map (fun x => 1 / x.2 ^ 2) = (l.map Prod.snd).map (fun e => 1 / e ^ 2) := by intro l; simp
    rw [hmap, hfil]
    by_cases ht : tel ∈ data.map Prod.fst
    · have : tel ∈ parts.map Prod.fst := (h1 tel).2 ht
      obtain ⟨p, hp, rfl⟩ := List.mem_map.1 this
      have hone : parts.filter (fun q => decide (q.1 = p.1)) = [p] := by
        clear h3 hfil hsum h1 h2 h0
        induction parts with
        | nil => simp at hp
        | cons q parts ih =>
          simp only [List.map_cons, List.nodup_cons] at hn
          rcases List.mem_cons.1 hp with rfl | hp'
          · rw [List.filter_cons_of_pos (by simp)]
            congr 1
            rw [List.filter_eq_nil_iff]
            intro x hx
            have : x.1 ≠ p.1 := fun h => hn.1 (h ▸ List.mem_map.2 ⟨x, hx, rfl⟩)
            simp [this]
          · have : q.1 ≠ p.1 := fun h => hn.1 (h ▸ List.mem_map.2 ⟨p, hp', rfl⟩)
            rw [List.filter_cons_of_neg (by simp [this])]
            exact ih hn.2 hp' (List.mem_map.2 ⟨p, hp', rfl⟩)
      rw [hone]
      simp only [List.map_cons, List.map_nil, List.flatten_cons, List.flatten_nil, List.append_nil]
      refine C50_conserved argsort ha (ownData data p.1) (ownData_ne_nil ht) b hb ?_ fuel p.2 (h2 p hp).1
      intro x hx
      obtain ⟨d, hd, rfl⟩ := List.mem_map.1 hx
      exact he d (List.mem_filter.1 hd).1
    · have hempty : data.filter (fun d => decide (d.1 = tel)) = [] := by
        rw [List.filter_eq_nil_iff]
        intro d hd
        have : d.1 ≠ tel := fun h => ht (List.mem_map.2 ⟨d, hd, h⟩)
        simp [this]
      have hempty' : parts.filter (fun d => decide (d.1 = tel)) = [] := by
        rw [List.filter_eq_nil_iff]
        intro d hd
        have : d.1 ≠ tel := fun h => ht ((h1 tel).1 (List.mem_map.2 ⟨d, hd, h⟩))
        simp [this]
      rw [hempty, hempty']
      simp [invVar]

/-- Non-vacuity of C51: two interleaved telescopes. -/
example : ∀ d ∈ [("a", (⟨0, 1, 1⟩ : Pt)), ("b", ⟨0.1, 2, 2⟩), ("a", ⟨0.2, 3, 1⟩)], d.2.err ≠ 0 := by simp

end Radvel
