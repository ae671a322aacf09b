import Verif.Lemmas.NumPrior
import Verif.Spec.NumPrior

/-!
# C162: the transform of a numerical prior and the quantiles of its sample
-/

namespace Radvel
open Classical

/-- What a numerical prior interpolates between. -/
theorem NumPrior.new_ok {nb : Nat} {values : List ℝ} {P : NumPrior} {lo hi : ℝ} (h : NumPrior.new nb values = .ok P) (hr : SampleRange values lo hi) :
    nb ≠ 0 ∧ lo < hi ∧ values ≠ [] ∧ P.cumulative.zip P.middle = (List.range nb).map (pointOf lo hi nb values) := by
  match values, h, hr with
  | v :: w :: vs, h, hr =>
    have e1 : least v (w :: vs) = lo := le_antisymm (least_le _ _ _ hr.1) (hr.2.2 _ (least_mem _ _)).1
    have e2 : greatest v (w :: vs) = hi := le_antisymm (hr.2.2 _ (greatest_mem _ _)).2 (le_greatest _ _ _ hr.2.1)
    simp only [NumPrior.new, e1, e2] at h
    split at h
    · cases h
    · split at h
      · cases h
      · rename_i hne hnb
        cases h
        have hle : lo ≤ hi := (hr.2.2 _ hr.2.1).1
        exact ⟨hnb, lt_of_le_of_ne hle hne, by simp, points_eq hnb hle hr.2.2⟩

theorem pointOf_rising {lo hi : ℝ} {nb : Nat} (h : lo ≤ hi) (values : List ℝ) (j : Nat) :
    (pointOf lo hi nb values j).1 ≤ (pointOf lo hi nb values (j + 1)).1 ∧ (pointOf lo hi nb values j).2 ≤ (pointOf lo hi nb values (j + 1)).2 := by
  have h1 := edge_mono h (nb := nb) (show j ≤ j + 1 by omega)
  have h2 := edge_mono h (nb := nb) (show j + 1 ≤ j + 1 + 1 by omega)
  simp only [pointOf]
  constructor
  · apply div_le_div_of_nonneg_right _ (Nat.cast_nonneg _)
    rw [firstBins_succ _ _ _ _ (j + 1)]
    push_cast
    linarith [(Nat.cast_nonneg (values.countP (inHistBin lo hi nb (j + 1))) : (0 : ℝ) ≤ _)]
  · linarith

/-- The transform as an interpolation from the first point. -/
theorem NumPrior.transform_eq {nb : Nat} {values : List ℝ} {P : NumPrior} {lo hi : ℝ} (h : NumPrior.new nb values = .ok P) (hr : SampleRange values lo hi) (u : ℝ) :
    ∃ n, nb = n + 1 ∧ Rising (pointOf lo hi nb values 0) ((List.range' 1 n).map (pointOf lo hi nb values)) ∧
      P.transform u = .ok (if u < (pointOf lo hi nb values 0).1 then (pointOf lo hi nb values 0).2
        else interpFrom u (pointOf lo hi nb values 0) ((List.range' 1 n).map (pointOf lo hi nb values))) := by
  obtain ⟨hnb, hlt, _, hp⟩ := NumPrior.new_ok h hr
  obtain ⟨n, rfl⟩ : ∃ n, nb = n + 1 := ⟨nb - 1, by omega⟩
  refine ⟨n, rfl, rising_map _ 0 n fun j _ _ => pointOf_rising hlt.le values j, ?_⟩
  rw [NumPrior.transform, hp, List.range_eq_range', List.range'_succ]
  rfl

/-- A larger unit-cube coordinate gives no smaller value. -/
theorem C162_monotone {nb : Nat} {values : List ℝ} {P : NumPrior} {lo hi u u' x x' : ℝ} (h : NumPrior.new nb values = .ok P) (hr : SampleRange values lo hi) (huu : u ≤ u')
    (hx : P.transform u = .ok x) (hx' : P.transform u' = .ok x') : x ≤ x' := by
  obtain ⟨n, hn, hris, e⟩ := NumPrior.transform_eq h hr u
  obtain ⟨n', hn', _, e'⟩ := NumPrior.transform_eq h hr u'
  obtain rfl : n = n' := by omega
  rw [e] at hx; rw [e'] at hx'
  cases hx; cases hx'
  by_cases h1 : u < (pointOf lo hi nb values 0).1
  · rw [if_pos h1]
    split
    · exact le_rfl
    · rename_i h2
      exact interpFrom_ge hris (not_lt.1 h2)
  · rw [if_neg h1, if_neg (by linarith)]
    exact interpFrom_mono hris (not_lt.1 h1) huu

/-- The transform of a prior that could be made always gives a number, and never one within half a bin of the ends of the sample. -/
theorem C162_range_partial {nb : Nat} {values : List ℝ} {P : NumPrior} {lo hi : ℝ} (h : NumPrior.new nb values = .ok P) (hr : SampleRange values lo hi) (u : ℝ) :
    ∃ x, P.transform u = .ok x ∧ lo + (hi - lo) / nb / 2 ≤ x ∧ x ≤ hi - (hi - lo) / nb / 2 := by
  obtain ⟨n, rfl, hris, e⟩ := NumPrior.transform_eq h hr u
  have e0 : (pointOf lo hi (n + 1) values 0).2 = lo + (hi - lo) / (n + 1 : Nat) / 2 := by
    simp only [pointOf, edge_succ, edge_zero]; ring
  have el : (lastPt (pointOf lo hi (n + 1) values 0) ((List.range' 1 n).map (pointOf lo hi (n + 1) values))).2 = hi - (hi - lo) / (n + 1 : Nat) / 2 := by
    rw [lastPt_map _ 0 n]
    have h1 := edge_last lo hi (show n + 1 ≠ 0 by omega)
    have h2 := edge_succ lo hi (n + 1) n
    simp only [pointOf, zero_add]
    rw [h1] at *
    linarith
  refine ⟨_, e, ?_⟩
  split
  · exact ⟨e0.ge, hris.last.trans el.le⟩
  · rename_i hu
    exact ⟨e0 ▸ interpFrom_ge hris (not_lt.1 hu), el ▸ interpFrom_le hris (not_lt.1 hu)⟩

theorem fracBelow_le {values : List ℝ} {x : ℝ} {c : Nat} (h : (values.countP fun v => decide (v < x)) ≤ c) : fracBelow values x ≤ (c : ℝ) / values.length := by
  apply div_le_div_of_nonneg_right _ (Nat.cast_nonneg _)
  exact_mod_cast h

theorem le_fracUpTo {values : List ℝ} {x : ℝ} {c : Nat} (h : c ≤ values.countP fun v => decide (v ≤ x)) : (c : ℝ) / values.length ≤ fracUpTo values x := by
  apply div_le_div_of_nonneg_right _ (Nat.cast_nonneg _)
  exact_mod_cast h

/-- The values counted in the first bins are at most those up to the edge. -/
theorem firstBins_upTo {lo hi : ℝ} {nb : Nat} (hnb : nb ≠ 0) (hlh : lo ≤ hi) {values : List ℝ} (hv : ∀ v ∈ values, lo ≤ v ∧ v ≤ hi) {j : Nat} (hj : j ≤ nb) {x : ℝ} (hx : binEdge lo hi nb j ≤ x) :
    firstBins lo hi nb values j ≤ values.countP fun v => decide (v ≤ x) := by
  rcases Nat.lt_or_ge j nb with h | h
  · rw [firstBins_eq hlh (fun v h => (hv v h).1) h]
    apply List.countP_mono_left
    intro v _ h
    simp only [decide_eq_true_eq] at h ⊢
    linarith
  · obtain rfl : j = nb := by omega
    rw [firstBins_all hnb hlh hv]
    rw [edge_last _ _ hnb] at hx
    apply le_of_eq
    symm
    rw [List.countP_eq_length]
    intro v hm
    simpa using (hv v hm).2.trans hx

/-- **C162 (partial).** The transform of a number of the unit interval is a quantile of the sample up to a bin width and a half: with bins of width `w`, at most the fraction `u` of the sample lies below `x - w/2`, and at least the fraction `u` not above `x + 3w/2`.

Missing from the full claim: that it is the quantile itself (`C162_quantile_violated`), or symmetric about it (`C162_shift_violated`). -/
theorem C162_quantile_partial {nb : Nat} {values : List ℝ} {P : NumPrior} {lo hi u x : ℝ} (h : NumPrior.new nb values = .ok P) (hr : SampleRange values lo hi) (h0 : 0 ≤ u) (h1 : u ≤ 1)
    (hx : P.transform u = .ok x) :
    fracBelow values (x - (hi - lo) / nb / 2) ≤ u ∧ u ≤ fracUpTo values (x + 3 * ((hi - lo) / nb) / 2) := by
  obtain ⟨hnb, hlt, hne, _⟩ := NumPrior.new_ok h hr
  obtain ⟨n, rfl, hris, e⟩ := NumPrior.transform_eq h hr u
  rw [e] at hx
  cases hx
  set w := (hi - lo) / ((n + 1 : Nat) : ℝ) with hw
  have hwpos : 0 < w := div_pos (by linarith) (by exact_mod_cast Nat.succ_pos n)
  have hlo : ∀ y, y ≤ lo → fracBelow values y ≤ 0 := by
    intro y hy
    have : (values.countP fun v => decide (v < y)) ≤ 0 := by
      rw [Nat.le_zero, List.countP_eq_zero]
      intro v hm
      have := (hr.2.2 v hm).1
      simp only [decide_eq_true_eq]
      linarith
    simpa using fracBelow_le this
  have hN : (values.length : ℝ) ≠ 0 := by
    have : values.length ≠ 0 := by simpa using hne
    exact_mod_cast this
  split
  · rename_i hu
    have e0 : (pointOf lo hi (n + 1) values 0).2 = lo + w / 2 := by
      simp only [pointOf, edge_succ, edge_zero, ← hw]; ring
    rw [e0]
    refine ⟨(hlo _ (by linarith)).trans h0, hu.le.trans ?_⟩
    exact le_fracUpTo (firstBins_upTo hnb hlt.le hr.2.2 (by omega) (by rw [edge_succ, edge_zero, ← hw]; linarith))
  · rename_i hu
    rcases interpFrom_spec hris (not_lt.1 hu) with ⟨i, a, b, ha, hb, hau, hub, hax, hxb⟩ | ⟨hl, hx⟩
    · have hmap : pointOf lo hi (n + 1) values 0 :: (List.range' 1 n).map (pointOf lo hi (n + 1) values) = (List.range (n + 1)).map (pointOf lo hi (n + 1) values) := by
        rw [List.range_eq_range', List.range'_succ]; rfl
      rw [hmap, List.getElem?_map] at ha hb
      have hi1 : i + 1 < n + 1 := by
        by_contra hc
        rw [List.getElem?_eq_none (by simpa using hc)] at hb
        cases hb
      rw [List.getElem?_range (by omega)] at ha
      rw [List.getElem?_range hi1] at hb
      cases ha; cases hb
      set y := interpFrom u (pointOf lo hi (n + 1) values 0) ((List.range' 1 n).map (pointOf lo hi (n + 1) values))
      simp only [pointOf] at hau hub hax hxb
      rw [edge_succ lo hi (n + 1) (i + 1), ← hw] at hxb
      have hs := edge_succ lo hi (n + 1) i
      rw [← hw] at hs
      constructor
      · refine le_trans (fracBelow_le ?_) hau
        rw [firstBins_eq hlt.le (fun v h => (hr.2.2 v h).1) hi1]
        apply List.countP_mono_left
        intro v _ hv
        simp only [decide_eq_true_eq] at hv ⊢
        linarith
      · refine hub.le.trans (le_fracUpTo (firstBins_upTo hnb hlt.le hr.2.2 (by omega) ?_))
        rw [edge_succ lo hi (n + 1) (i + 1), ← hw]
        linarith
    · rw [hx]
      rw [lastPt_map _ 0 n, zero_add] at hl ⊢
      have hc : (pointOf lo hi (n + 1) values n).1 = 1 := by
        simp only [pointOf]
        rw [firstBins_all hnb hlt.le hr.2.2, div_self hN]
      rw [hc] at hl
      obtain rfl : u = 1 := le_antisymm h1 hl
      constructor
      · refine (fracBelow_le (List.countP_le_length ..)).trans ?_
        rw [div_self hN]
      · have h2 := edge_last lo hi (show n + 1 ≠ 0 by omega)
        have h3 := edge_succ lo hi (n + 1) n
        rw [h2, ← hw] at h3
        have := le_fracUpTo (x := (pointOf lo hi (n + 1) values n).2 + 3 * w / 2) (firstBins_upTo (j := n + 1) hnb hlt.le hr.2.2 le_rfl (by simp only [pointOf]; rw [h2]; linarith))
        rw [firstBins_all hnb hlt.le hr.2.2, div_self hN] at this
        exact this

/-- **Finding.** The lowest bin collapses to a point: every `u` up to the fraction of the sample in the first bin, which is not zero, is transformed to the middle of that bin. -/
theorem C162_lost_violated {nb : Nat} {values : List ℝ} {P : NumPrior} {lo hi : ℝ} (h : NumPrior.new nb values = .ok P) (hr : SampleRange values lo hi) :
    ∃ c, 0 < c ∧ ∀ u, u < c → P.transform u = .ok (lo + (hi - lo) / nb / 2) := by
  obtain ⟨hnb, hlt, hne, _⟩ := NumPrior.new_ok h hr
  refine ⟨(pointOf lo hi nb values 0).1, ?_, ?_⟩
  · have hN : 0 < values.length := List.length_pos_iff.2 hne
    have h1 : 0 < firstBins lo hi nb values 1 := by
      rw [firstBins_succ]
      have : 0 < values.countP (inHistBin lo hi nb 0) := by
        rw [List.countP_pos_iff]
        refine ⟨lo, hr.1, ?_⟩
        simp only [inHistBin, decide_eq_true_eq, edge_succ, edge_zero]
        refine ⟨le_rfl, .inl ?_⟩
        have : 0 < (hi - lo) / (nb : ℝ) := div_pos (by linarith) (by exact_mod_cast Nat.pos_of_ne_zero hnb)
        linarith
      omega
    simp only [pointOf]
    exact div_pos (by exact_mod_cast h1) (by exact_mod_cast hN)
  · intro u hu
    obtain ⟨n, rfl, hris, e⟩ := NumPrior.transform_eq h hr u
    rw [e, if_pos hu]
    congr 1
    simp only [pointOf, edge_succ, edge_zero]; ring

theorem interpFrom_knot {p : ℝ × ℝ} {l : List (ℝ × ℝ)} (hr : Rising p l) {i : Nat} {a b : ℝ × ℝ} (ha : (p :: l)[i]? = some a) (hb : (p :: l)[i + 1]? = some b) (hab : a.1 < b.1) :
    p.1 ≤ a.1 ∧ interpFrom a.1 p l = a.2 := by
  induction l generalizing p i with
  | nil => simp at hb
  | cons q t ih =>
    unfold interpFrom
    cases i with
    | zero =>
      simp at ha hb
      subst ha; subst hb
      exact ⟨le_rfl, by rw [if_pos hab, if_pos rfl]⟩
    | succ i =>
      have h2 := ih hr.2.2 (i := i) (by simpa using ha) (by simpa using hb)
      refine ⟨hr.1.trans h2.1, ?_⟩
      rw [if_neg (not_lt.2 h2.1)]
      exact h2.2

/-- **Finding.** Cumulative fractions belong to the right edges of the bins but are paired with their middles: at every inner edge `e` followed by a bin that is not empty, the fraction of the sample below `e` is transformed to `e` less half a bin, so that draws are biased low by half a bin. -/
theorem C162_shift_violated {nb : Nat} {values : List ℝ} {P : NumPrior} {lo hi e : ℝ} {j : Nat} (h : NumPrior.new nb values = .ok P) (hr : SampleRange values lo hi) (hj : 0 < j) (hjn : j < nb)
    (he : e = lo + j * ((hi - lo) / nb)) (hfull : ∃ v ∈ values, e ≤ v ∧ v < e + (hi - lo) / nb) :
    P.transform (fracBelow values e) = .ok (e - (hi - lo) / nb / 2) := by
  obtain ⟨hnb, hlt, hne, _⟩ := NumPrior.new_ok h hr
  obtain ⟨n, rfl, hris, et⟩ := NumPrior.transform_eq h hr (fracBelow values e)
  obtain ⟨i, rfl⟩ : ∃ i, j = i + 1 := ⟨j - 1, by omega⟩
  have hee : binEdge lo hi (n + 1) (i + 1) = e := by rw [he, binEdge]
  have hfb : fracBelow values e = (pointOf lo hi (n + 1) values i).1 := by
    simp only [pointOf, fracBelow]
    rw [firstBins_eq hlt.le (fun v h => (hr.2.2 v h).1) hjn, hee]
  have hmap : pointOf lo hi (n + 1) values 0 :: (List.range' 1 n).map (pointOf lo hi (n + 1) values) = (List.range (n + 1)).map (pointOf lo hi (n + 1) values) := by
    rw [List.range_eq_range', List.range'_succ]; rfl
  have hstrict : (pointOf lo hi (n + 1) values i).1 < (pointOf lo hi (n + 1) values (i + 1)).1 := by
    have hN : 0 < values.length := List.length_pos_iff.2 hne
    simp only [pointOf]
    apply div_lt_div_of_pos_right _ (by exact_mod_cast hN)
    rw [firstBins_succ _ _ _ _ (i + 1)]
    have : 0 < values.countP (inHistBin lo hi (n + 1) (i + 1)) := by
      rw [List.countP_pos_iff]
      obtain ⟨v, hm, h1, h2⟩ := hfull
      refine ⟨v, hm, ?_⟩
      simp only [inHistBin, decide_eq_true_eq, edge_succ lo hi (n + 1) (i + 1), hee]
      exact ⟨h1, .inl h2⟩
    exact_mod_cast Nat.lt_add_of_pos_right this
  have hk := interpFrom_knot hris (i := i) (a := pointOf lo hi (n + 1) values i) (b := pointOf lo hi (n + 1) values (i + 1))
    (by rw [hmap, List.getElem?_map, List.getElem?_range (by omega)]; rfl) (by rw [hmap, List.getElem?_map, List.getElem?_range (by omega)]; rfl) hstrict
  rw [et, hfb, if_neg (not_lt.2 hk.1), hk.2]
  congr 1
  have := edge_succ lo hi (n + 1) i
  simp only [pointOf, hee] at *
  linarith

/-- A sample with two different values gives a prior, with any number of bins but none. -/
theorem C162_made {nb : Nat} {values : List ℝ} {a b : ℝ} (hnb : nb ≠ 0) (ha : a ∈ values) (hb : b ∈ values) (hab : a ≠ b) : ∃ P, NumPrior.new nb values = .ok P := by
  match values, ha, hb with
  | [v], ha, hb => simp at ha hb; exact absurd (ha.trans hb.symm) hab
  | v :: w :: vs, ha, hb =>
    simp only [NumPrior.new]
    rw [if_neg, if_neg hnb]
    · exact ⟨_, rfl⟩
    · intro h
      have h1 := least_le _ _ _ ha
      have h2 := le_greatest _ _ _ ha
      have h3 := least_le _ _ _ hb
      have h4 := le_greatest _ _ _ hb
      exact hab (by linarith)

/-- A numerical prior for the sample 0, 1, 2, 4 with two bins of width 2. -/
theorem exampleNumPrior : ∃ P, NumPrior.new 2 [0, 1, 2, 4] = .ok P ∧ SampleRange [0, 1, 2, 4] 0 4 := by
  obtain ⟨P, hP⟩ := C162_made (nb := 2) (values := [0, 1, 2, 4]) (a := 0) (b := 1) (by norm_num) (by simp) (by simp) (by norm_num)
  refine ⟨P, hP, by simp, by simp, ?_⟩
  intro v hv
  simp only [List.mem_cons, List.not_mem_nil, or_false] at hv
  rcases hv with rfl | rfl | rfl | rfl <;> norm_num

/-- `C162_shift_violated`: half of the sample lies below 2, which is transformed to 1. -/
example : ∃ P, NumPrior.new 2 [0, 1, 2, 4] = .ok P ∧ P.transform (fracBelow [0, 1, 2, 4] 2) = .ok 1 := by
  obtain ⟨P, h, hr⟩ := exampleNumPrior
  refine ⟨P, h, ?_⟩
  have := C162_shift_violated (e := 2) (j := 1) h hr (by norm_num) (by norm_num) (by norm_num) ⟨2, by simp, by norm_num, by norm_num⟩
  rw [this]
  norm_num

/-- **Finding.** So the transform is not the quantile of the sample: with the sample 0, 1, 2, 4 and two bins, every small enough `u` is transformed to 1, although a quarter of the sample lies below 1. -/
theorem C162_quantile_violated : ∃ (nb : Nat) (values : List ℝ) (P : NumPrior) (u x : ℝ), NumPrior.new nb values = .ok P ∧ 0 ≤ u ∧ u ≤ 1 ∧ P.transform u = .ok x ∧ ¬ SampleQuantile values u x := by
  obtain ⟨P, h, hr⟩ := exampleNumPrior
  obtain ⟨c, hc, hu⟩ := C162_lost_violated h hr
  refine ⟨2, _, P, min (c / 2) (1 / 10), _, h, le_min (by linarith) (by norm_num), (min_le_right _ _).trans (by norm_num), hu _ ((min_le_left _ _).trans_lt (by linarith)), ?_⟩
  rintro ⟨hq, _⟩
  have h1 : fracBelow [0, 1, 2, 4] (0 + (4 - 0) / (2 : Nat) / 2) = 1 / 4 := by
    simp only [fracBelow, List.countP_cons, List.countP_nil]
    norm_num
  have := (hq.trans (min_le_right _ _))
  rw [h1] at this
  norm_num at this

/-- `C162_quantile_partial`, `C162_range_partial`, `C162_monotone`: their hypotheses hold for this prior. -/
example : ∃ P x, NumPrior.new 2 [0, 1, 2, 4] = .ok P ∧ P.transform (1 / 3) = .ok x ∧ 1 ≤ x ∧ x ≤ 3 ∧ fracBelow [0, 1, 2, 4] (x - 1) ≤ 1 / 3 := by
  obtain ⟨P, h, hr⟩ := exampleNumPrior
  obtain ⟨x, hx, h1, h2⟩ := C162_range_partial h hr (1 / 3)
  have h3 := C162_quantile_partial h hr (by norm_num) (by norm_num) hx
  norm_num at h1 h2 h3
  exact ⟨P, x, h, hx, h1, h2, h3.1⟩

end Radvel
