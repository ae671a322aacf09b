import Verif.Model.RowText
import Verif.Lemmas.PostLoop
import Mathlib.Analysis.Real.Pi.Bounds
import Verif.Spec.Postprocess

/-!
# C163: the numbers of a row of the table of parameters
-/

namespace Radvel
open Real

/-! ## two errors -/

theorem decimals_le (lo hi : Dec) (h1 : lo.exp ≤ 0) (h2 : hi.exp ≤ 0) : decimals lo hi ≤ lo.exp ∧ decimals lo hi ≤ hi.exp := by
  unfold decimals
  rw [abs_of_nonpos h1, abs_of_nonpos h2]
  split_ifs <;> omega

theorem roundEven_whole (d : Dec) (h : d.Whole) : (roundEven d.val : ℝ) = d.val := by
  obtain ⟨z, hz⟩ := whole_val d h
  rw [hz, roundEven_int]

/-- `sigfig` with two positive errors of two digits keeps the errors and moves the value by at most half of the smaller one. -/
theorem sigfig_pair (lo hi : Dec) (hl : 0 < lo.val) (hh : 0 < hi.val) (el : lo.exp ≤ -1) (eh : hi.exp ≤ -1) (hsig : roundSig lo.val 2 = lo.val) (med : ℝ) :
    ∃ v F, (∀ fuel, F ≤ fuel → sigfig fuel med lo (some hi) = some (v, lo.val, hi.val)) ∧ |v - med| ≤ min lo.val hi.val / 2 := by
  obtain ⟨d1, d2⟩ := decimals_le lo hi (by omega) (by omega)
  have u1 := unit_le_val lo hl
  have u2 := unit_le_val hi hh
  have hunit : (10 : ℝ) ^ decimals lo hi ≤ min lo.val hi.val :=
    le_min ((zpow_le_zpow_right₀ (by norm_num) d1).trans u1) ((zpow_le_zpow_right₀ (by norm_num) d2).trans u2)
  by_cases h1 : decimals lo hi < -1
  · obtain ⟨m, F, h2, h3, h4⟩ := C91_decimals med lo hi h1
    refine ⟨m, F, h2, ?_⟩
    by_cases hm : med = 0
    · rw [h3.2 hm, hm, sub_zero, abs_zero]
      have := lt_min hl hh
      linarith
    · obtain ⟨q, rfl, _⟩ := h4 hm
      rw [abs_of_nonpos (by omega : decimals lo hi ≤ 0)]
      have := pyRound_dist med (-decimals lo hi + q)
      have h5 : (10 : ℝ) ^ (-(-decimals lo hi + (q : ℤ))) ≤ 10 ^ decimals lo hi := zpow_le_zpow_right₀ (by norm_num) (by omega)
      linarith
  · have e1 : lo.exp = -1 := by omega
    have e2 : hi.exp = -1 := by omega
    have hd : decimals lo hi = -1 := by omega
    by_cases hw : hi.m % 10 = 0 ∧ lo.m % 10 = 0
    · have w1 : lo.Whole := .inl ⟨e1, hw.2⟩
      have w2 : hi.Whole := .inl ⟨e2, hw.1⟩
      refine ⟨(roundEven med : ℝ), 0, fun fuel _ => ?_, ?_⟩
      · rw [C91_whole fuel med lo hi (.inl ⟨hd, hw⟩), hsig, roundEven_whole hi w2]
        obtain ⟨z, hz⟩ := whole_val lo w1
        rw [hz, truncInt_int]
      · have := roundEven_dist med
        have p1 : (1 : ℝ) ≤ lo.val := by
          obtain ⟨z, hz⟩ := whole_val lo w1
          rw [hz] at hl ⊢
          exact_mod_cast hl
        have p2 : (1 : ℝ) ≤ hi.val := by
          obtain ⟨z, hz⟩ := whole_val hi w2
          rw [hz] at hh ⊢
          exact_mod_cast hh
        have := le_min p1 p2
        linarith
    · refine ⟨pyRound med 1, 0, fun fuel _ => ?_, ?_⟩
      · unfold sigfig
        simp only [Option.getD_some, e1, e2, gt_iff_lt, lt_self_iff_false, if_false]
        rw [if_neg]
        · rfl
        · rintro (⟨⟨_, h2⟩, _, h3⟩ | h)
          · exact hw ⟨by simpa [Dec.lastZero] using h2, by simpa [Dec.lastZero] using h3⟩
          · exact absurd h (by decide)
      · have := pyRound_dist med 1
        rw [hd] at hunit
        norm_num at this hunit ⊢
        rcases hunit with ⟨g1, g2⟩
        rw [le_div_iff₀ (by norm_num)]
        refine le_min ?_ ?_ <;> linarith

/-- The row for two distances that are not tiny. -/
theorem rowShow_interval (med low high maxlike q50 : ℝ) (hl : 1.1e-12 < low) (hh : 1.1e-12 < high) : ∃ m mx F, (∀ fuel, F ≤ fuel → rowShow fuel med low high maxlike q50 = some (.interval m (roundSig low 2) (roundSig high 2) mx)) ∧
    |m - med| ≤ min (roundSig low 2) (roundSig high 2) / 2 ∧ |mx - maxlike| ≤ min (roundSig low 2) (roundSig high 2) / 2 := by
  have hbig : ∀ x : ℝ, 1.1e-12 < x → 1e-12 < roundSig x 2 := by
    intro x hx
    have := C54_relative x 2 (le_refl _)
    rw [abs_of_pos (a := x) (by linarith), abs_le] at this
    norm_num at this hx ⊢
    linarith [this.1]
  obtain ⟨a1, a2⟩ := strFloat_spec _ (roundSig_decimal low)
  obtain ⟨b1, b2⟩ := strFloat_spec _ (roundSig_decimal high)
  have c1 := hbig low hl
  have c2 := hbig high hh
  have p1 : 0 < roundSig low 2 := by norm_num at c1; linarith
  have p2 : 0 < roundSig high 2 := by norm_num at c2; linarith
  have hs : roundSig (strFloat (roundSig low 2)).val 2 = (strFloat (roundSig low 2)).val := by rw [a1]; exact C54_idempotent low 2 (by norm_num)
  obtain ⟨m, F, h1, h2⟩ := sigfig_pair _ _ (by rw [a1]; exact p1) (by rw [b1]; exact p2) a2 b2 hs med
  obtain ⟨mx, F', h3, h4⟩ := sigfig_pair _ _ (by rw [a1]; exact p1) (by rw [b1]; exact p2) a2 b2 hs maxlike
  rw [a1, b1] at h2 h4
  refine ⟨m, mx, max F F', ?_, h2, h4⟩
  intro fuel hf
  unfold rowShow
  simp only
  rw [h3 fuel (le_trans (le_max_right _ _) hf)]
  simp only
  rw [h1 fuel (le_trans (le_max_left _ _) hf)]
  simp only
  rw [a1, b1, if_neg]
  rw [not_le]
  exact lt_min c1 c2

/-- `sigfig` keeps two errors that have at most two digits. -/
theorem sigfig_errs (lo hi : Dec) (el : lo.exp ≤ -1) (eh : hi.exp ≤ -1) (hsig : roundSig lo.val 2 = lo.val) (med : ℝ) : ∃ v F, ∀ fuel, F ≤ fuel → sigfig fuel med lo (some hi) = some (v, lo.val, hi.val) := by
  obtain ⟨d1, d2⟩ := decimals_le lo hi (by omega) (by omega)
  by_cases h1 : decimals lo hi < -1
  · obtain ⟨m, F, h2, _⟩ := C91_decimals med lo hi h1
    exact ⟨m, F, h2⟩
  · have e1 : lo.exp = -1 := by omega
    have e2 : hi.exp = -1 := by omega
    have hd : decimals lo hi = -1 := by omega
    by_cases hw : hi.m % 10 = 0 ∧ lo.m % 10 = 0
    · refine ⟨(roundEven med : ℝ), 0, fun fuel _ => ?_⟩
      rw [C91_whole fuel med lo hi (.inl ⟨hd, hw⟩), hsig, roundEven_whole hi (.inl ⟨e2, hw.1⟩)]
      obtain ⟨z, hz⟩ := whole_val lo (.inl ⟨e1, hw.2⟩)
      rw [hz, truncInt_int]
    · refine ⟨pyRound med 1, 0, fun fuel _ => ?_⟩
      unfold sigfig
      simp only [Option.getD_some, e1, e2, gt_iff_lt, lt_self_iff_false, if_false]
      rw [if_neg]
      · rfl
      · rintro (⟨⟨_, h2⟩, _, h3⟩ | h)
        · exact hw ⟨by simpa [Dec.lastZero] using h2, by simpa [Dec.lastZero] using h3⟩
        · exact absurd h (by decide)

/-- One of the two distances is (nearly) zero: the row says "fixed". -/
theorem rowShow_fixed (med low high maxlike q50 : ℝ) (hl : 0 ≤ low) (hh : 0 ≤ high) (h : low ≤ 0.9e-12 ∨ high ≤ 0.9e-12) :
    ∃ F, ∀ fuel, F ≤ fuel → rowShow fuel med low high maxlike q50 = some (.fixed (pyRound q50 4)) := by
  have hsmall : ∀ x : ℝ, 0 ≤ x → x ≤ 0.9e-12 → roundSig x 2 ≤ 1e-12 := by
    intro x h0 hx
    have := C54_relative x 2 (le_refl _)
    rw [abs_of_nonneg (a := x) h0, abs_le] at this
    norm_num at this hx ⊢
    linarith [this.2]
  obtain ⟨a1, a2⟩ := strFloat_spec _ (roundSig_decimal low)
  obtain ⟨b1, b2⟩ := strFloat_spec _ (roundSig_decimal high)
  have hs : roundSig (strFloat (roundSig low 2)).val 2 = (strFloat (roundSig low 2)).val := by rw [a1]; exact C54_idempotent low 2 (by norm_num)
  obtain ⟨m, F, h1⟩ := sigfig_errs _ _ a2 b2 hs med
  obtain ⟨mx, F', h2⟩ := sigfig_errs _ _ a2 b2 hs maxlike
  refine ⟨max F F', fun fuel hf => ?_⟩
  unfold rowShow
  simp only
  rw [h2 fuel (le_trans (le_max_right _ _) hf)]
  simp only
  rw [h1 fuel (le_trans (le_max_left _ _) hf)]
  simp only
  rw [a1, b1, if_pos]
  rcases h with h | h
  · exact (min_le_left _ _).trans (hsmall low hl h)
  · exact (min_le_right _ _).trans (hsmall high hh h)

/-! ## C163 -/

/-- C163, quantities that are not angles: the row shows the median of the samples and the distances to the quantiles 15.9 % and 84.1 %, rounded to two significant digits (so within 5 %); median and maximum-likelihood
value are rounded, by at most half of the smaller error; the samples are left alone. Missing: distances of `1e-12` or less (see `C163_sign_violated`). `F` bounds the loop of `sigfig`, which ends. -/
theorem C163_interval_partial {n : Nat} (mode : List ℝ → ℝ) (unit : Text) (hu : unit ≠ "radians".toList) (table : Fin n → Option ℝ) (col : List ℝ) (maxlike lo med hi : ℝ)
    (q1 : quantile table 0.159 = some lo) (q2 : quantile table 0.5 = some med) (q3 : quantile table 0.841 = some hi) (hl : 1.1e-12 < med - lo) (hh : 1.1e-12 < hi - med) :
    ColQuantile table 0.159 lo ∧ ColQuantile table 0.5 med ∧ ColQuantile table 0.841 hi ∧ ∃ m low high mx F,
      (∀ fuel, F ≤ fuel → rowNumbers fuel mode unit table col maxlike = (col, .ok (some (.interval m low high mx)))) ∧
      low = roundSig (med - lo) 2 ∧ high = roundSig (hi - med) 2 ∧ |low - (med - lo)| ≤ 0.05 * (med - lo) ∧ |high - (hi - med)| ≤ 0.05 * (hi - med) ∧
      |m - med| ≤ min low high / 2 ∧ |mx - maxlike| ≤ min low high / 2 := by
  refine ⟨quantile_colQuantile _ (by norm_num) (by norm_num) q1, quantile_colQuantile _ (by norm_num) (by norm_num) q2, quantile_colQuantile _ (by norm_num) (by norm_num) q3, ?_⟩
  obtain ⟨m, mx, F, h1, h2, h3⟩ := rowShow_interval med (med - lo) (hi - med) maxlike med hl hh
  have r1 := C54_relative (med - lo) 2 (le_refl _)
  have r2 := C54_relative (hi - med) 2 (le_refl _)
  rw [abs_of_pos (a := med - lo) (by norm_num at hl; linarith)] at r1
  rw [abs_of_pos (a := hi - med) (by norm_num at hh; linarith)] at r2
  refine ⟨m, _, _, mx, F, ?_, rfl, rfl, r1, r2, h2, h3⟩
  intro fuel hf
  unfold rowNumbers
  rw [q1, q2, q3]
  simp only
  rw [if_neg hu, h1 fuel hf]

/-- C163, angles: every sample is moved by a whole number of turns; the row shows the median of the moved samples and the distances to two of them (those at 15.9 % and 84.1 % of the ordered list, C53), rounded as
other quantities are. Missing: as for other quantities, and the maximum-likelihood value is not moved with the samples (`C163_angle_violated`). -/
theorem C163_angle_partial {n : Nat} (mode : List ℝ → ℝ) (table : Fin n → Option ℝ) (hn : ∃ j x, table j = some x) (col : List ℝ) (hne : col ≠ []) (maxlike : ℝ) : ∃ col' med lo hi,
    List.Forall₂ (fun x x' => x' = x ∨ x' = x + 2 * π ∨ x' = x - 2 * π) col col' ∧ lo ∈ col' ∧ hi ∈ col' ∧ lo ≤ med ∧ med ≤ hi ∧ (geterr mode col true).2 = .ok (med, med - lo, hi - med) ∧
    (1.1e-12 < med - lo → 1.1e-12 < hi - med → ∃ m low high mx F,
      (∀ fuel, F ≤ fuel → rowNumbers fuel mode "radians".toList table col maxlike = (col', .ok (some (.interval m low high mx)))) ∧
      low = roundSig (med - lo) 2 ∧ high = roundSig (hi - med) 2 ∧ |low - (med - lo)| ≤ 0.05 * (med - lo) ∧ |high - (hi - med)| ≤ 0.05 * (hi - med) ∧
      |m - med| ≤ min low high / 2 ∧ |mx - maxlike| ≤ min low high / 2) := by
  obtain ⟨col', med, lo, hi, h1, h2, h3, h4, h5, _, h6⟩ := C53_errors mode col hne true
  refine ⟨col', med, med - lo, med + hi, h6, h4, h5, by linarith, by linarith, by rw [h1, sub_sub_cancel, add_sub_cancel_left], ?_⟩
  rw [sub_sub_cancel, add_sub_cancel_left]
  intro hl hh
  obtain ⟨m, mx, F, g1, g2, g3⟩ := rowShow_interval med lo hi maxlike (interp (sortedCol table) ((((sortedCol table).length : ℝ) - 1) * 0.5)) hl hh
  have r1 := C54_relative lo 2 (le_refl _)
  have r2 := C54_relative hi 2 (le_refl _)
  rw [abs_of_nonneg (a := lo) h2] at r1
  rw [abs_of_nonneg (a := hi) h3] at r2
  refine ⟨m, _, _, mx, F, ?_, rfl, rfl, r1, r2, g2, g3⟩
  intro fuel hf
  unfold rowNumbers
  rw [quantile_eq table hn (by norm_num) (by norm_num), quantile_eq table hn (q := 0.159) (by norm_num) (by norm_num), quantile_eq table hn (q := 0.841) (by norm_num) (by norm_num)]
  simp only [if_true]
  rw [h1]
  simp only
  rw [g1 fuel hf]

/-- C163, a parameter that was not sampled (all rows of its column hold one number): the row says so, with the number to four decimals, whatever else is given; so within 0.00005. -/
theorem C163_fixed_partial {n : Nat} (hn : 0 < n) (mode : List ℝ → ℝ) (unit : Text) (hu : unit ≠ "radians".toList) (x : ℝ) (table : Fin n → Option ℝ) (ht : ∀ j, table j = some x) (col : List ℝ) (maxlike : ℝ) :
    ∃ v F, (∀ fuel, F ≤ fuel → rowNumbers fuel mode unit table col maxlike = (col, .ok (some (.fixed v)))) ∧ |v - x| ≤ 0.00005 := by
  obtain ⟨F, h⟩ := rowShow_fixed x 0 0 maxlike x (le_refl _) (le_refl _) (.inl (by norm_num))
  refine ⟨pyRound x 4, F, ?_, ?_⟩
  · intro fuel hf
    unfold rowNumbers
    rw [quantile_const table x hn ht (by norm_num) (by norm_num), quantile_const table x hn ht (by norm_num) (by norm_num), quantile_const table x hn ht (by norm_num) (by norm_num)]
    simp only [sub_self]
    rw [if_neg hu, h fuel hf]
  · have := pyRound_dist x 4
    norm_num at this ⊢
    linarith

/-- C163 is false for small fixed values: trends that are held at numbers below 0.00005 (in m/s/d, or curvatures) are all shown as `0`. -/
theorem C163_fixed_violated {n : Nat} (hn : 0 < n) (mode : List ℝ → ℝ) (unit : Text) (hu : unit ≠ "radians".toList) (x : ℝ) (hx : |x| < 0.00005) (table : Fin n → Option ℝ) (ht : ∀ j, table j = some x) (col : List ℝ)
    (maxlike : ℝ) : ∃ F, ∀ fuel, F ≤ fuel → rowNumbers fuel mode unit table col maxlike = (col, .ok (some (.fixed 0))) := by
  obtain ⟨F, h⟩ := rowShow_fixed x 0 0 maxlike x (le_refl _) (le_refl _) (.inl (by norm_num))
  have hz : pyRound x 4 = 0 := by
    have hr : roundEven (x * 10 ^ (4 : ℤ)) = 0 := by
      have h1 := roundEven_dist (x * 10 ^ (4 : ℤ))
      have h2 : |x * 10 ^ (4 : ℤ)| < 1 / 2 := by
        rw [abs_mul, abs_of_pos (a := (10 : ℝ) ^ (4 : ℤ)) (by positivity)]
        norm_num at hx ⊢
        linarith
      have h3 : |(roundEven (x * 10 ^ (4 : ℤ)) : ℝ)| < 1 := by
        clear hx h
        generalize x * 10 ^ (4 : ℤ) = y at h1 h2
        have := abs_sub_abs_le_abs_sub (roundEven y : ℝ) y
        linarith
      have h4 : |roundEven (x * 10 ^ (4 : ℤ))| < 1 := by exact_mod_cast h3
      exact Int.abs_lt_one_iff.1 h4
    unfold pyRound
    rw [hr]; simp
  refine ⟨F, fun fuel hf => ?_⟩
  unfold rowNumbers
  rw [quantile_const table x hn ht (by norm_num) (by norm_num), quantile_const table x hn ht (by norm_num) (by norm_num), quantile_const table x hn ht (by norm_num) (by norm_num)]
  simp only [sub_self]
  rw [if_neg hu, h fuel hf, hz]

/-- C163 is false for the sign of fixed parameters: it is enough that one of the two distances is `0.9e-12` or less. Then both errors and the maximum-likelihood value disappear from the row, however large the other
distance is. -/
theorem C163_sign_violated {n : Nat} (mode : List ℝ → ℝ) (unit : Text) (hu : unit ≠ "radians".toList) (table : Fin n → Option ℝ) (col : List ℝ) (maxlike lo med hi : ℝ)
    (q1 : quantile table 0.159 = some lo) (q2 : quantile table 0.5 = some med) (q3 : quantile table 0.841 = some hi) (h : med - lo ≤ 0.9e-12 ∨ hi - med ≤ 0.9e-12) :
    ∃ F, ∀ fuel, F ≤ fuel → rowNumbers fuel mode unit table col maxlike = (col, .ok (some (.fixed (pyRound med 4)))) := by
  have h1 := quantile_mono table (by norm_num) (by norm_num) (by norm_num) q1 q2
  have h2 := quantile_mono table (by norm_num) (by norm_num) (by norm_num) q2 q3
  obtain ⟨F, hF⟩ := rowShow_fixed med (med - lo) (hi - med) maxlike med (by linarith) (by linarith) h
  refine ⟨F, fun fuel hf => ?_⟩
  unfold rowNumbers
  rw [q1, q2, q3]
  simp only
  rw [if_neg hu, hF fuel hf]

/-! ### angles shown twice -/

/-- The number chosen by the histogram lies between the smallest and the largest sample: it is the left edge of one of 50 bins of equal width between them. -/
def BinEdge (mode : List ℝ → ℝ) : Prop := ∀ v : List ℝ, v ≠ [] → (∃ a ∈ v, a ≤ mode v) ∧ ∃ b ∈ v, mode v ≤ b

theorem map_fix {f : ℝ → ℝ} : ∀ {l : List ℝ}, (∀ x ∈ l, f x = x) → l.map f = l := by
  intro l h
  conv_rhs => rw [← List.map_id l]
  exact List.map_congr_left fun x hx => by rw [h x hx]; rfl

/-- Moving a second time changes nothing. -/
theorem wrap_twice (mode : List ℝ → ℝ) (hm : BinEdge mode) (v : List ℝ) (hv : ∀ x ∈ v, -(2 * π) ≤ x ∧ x < 2 * π) :
    wrapAngles (mode (wrapAngles (mode v) v)) (wrapAngles (mode v) v) = wrapAngles (mode v) v := by
  have hpi := pi_pos
  by_cases hne : v = []
  · subst hne; simp [wrapAngles]
  by_cases h1 : mode v > π / 2
  · have e : wrapAngles (mode v) v = v.map (fun x => if x < 0 then x + 2 * π else x) := by
      unfold wrapAngles
      simp only [if_pos h1]
      rw [if_neg (by linarith)]
    have hpos : ∀ y ∈ wrapAngles (mode v) v, 0 ≤ y := by
      rw [e]
      intro y hy
      obtain ⟨x, hx, rfl⟩ := List.mem_map.1 hy
      split_ifs with h
      · linarith [(hv x hx).1]
      · linarith
    have hne' : wrapAngles (mode v) v ≠ [] := by rw [e]; simpa using hne
    obtain ⟨⟨a, ha, ha'⟩, _⟩ := hm _ hne'
    have h0 := hpos a ha
    set w := wrapAngles (mode v) v
    unfold wrapAngles
    have hid : (if mode w > π / 2 then w.map (fun x => if x < 0 then x + 2 * π else x) else w) = w := by
      split_ifs
      · exact map_fix fun x hx => if_neg (by linarith [hpos x hx])
      · rfl
    simp only [hid]
    rw [if_neg (by linarith)]
  · by_cases h2 : mode v ≤ -(π / 2)
    · have e : wrapAngles (mode v) v = v.map (fun x => if 0 ≤ x then x - 2 * π else x) := by
        unfold wrapAngles
        simp only [if_neg h1, if_pos h2]
      have hneg : ∀ y ∈ wrapAngles (mode v) v, y < 0 := by
        rw [e]
        intro y hy
        obtain ⟨x, hx, rfl⟩ := List.mem_map.1 hy
        split_ifs with h
        · linarith [(hv x hx).2]
        · linarith
      have hne' : wrapAngles (mode v) v ≠ [] := by rw [e]; simpa using hne
      obtain ⟨_, b, hb, hb'⟩ := hm _ hne'
      have h0 := hneg b hb
      set w := wrapAngles (mode v) v
      unfold wrapAngles
      simp only [if_neg (by linarith : ¬ mode w > π / 2)]
      split_ifs
      · exact map_fix fun x hx => if_neg (by linarith [hneg x hx])
      · rfl
    · have e : wrapAngles (mode v) v = v := by
        unfold wrapAngles
        simp only [if_neg h1, if_neg h2]
      rw [e, e]

/-- C163: an angle has a row among the fitted and a row among the orbital parameters. Although the first one changes the column of samples, both show the same numbers, if the samples are within one turn of zero. -/
theorem C163_twice_partial {n : Nat} (mode : List ℝ → ℝ) (hm : BinEdge mode) (fuel : Nat) (table : Fin n → Option ℝ) (col : List ℝ) (hv : ∀ x ∈ col, -(2 * π) ≤ x ∧ x < 2 * π) (maxlike : ℝ) :
    rowNumbers fuel mode "radians".toList table (rowNumbers fuel mode "radians".toList table col maxlike).1 maxlike = rowNumbers fuel mode "radians".toList table col maxlike := by
  have hg : geterr mode (geterr mode col true).1 true = geterr mode col true := by
    unfold geterr
    simp only [if_true]
    rw [wrap_twice mode hm col hv]
  unfold rowNumbers
  rcases quantile table 0.5 with _ | q50
  · rfl
  rcases quantile table 0.159 with _ | q16
  · rfl
  rcases quantile table 0.841 with _ | q84
  · rfl
  simp only [if_true]
  rcases h : geterr mode col true with ⟨c, e | ⟨a, b, d⟩⟩ <;> rw [h] at hg <;> simp only [hg]

/-- C163 is false for angles near 180 degrees: the samples are moved, but the maximum-likelihood value is not. Four samples in nearly the same direction, one of which is the best fit: the row shows a median and a best fit
that differ by more than 5.9 radians, with errors below 0.3. -/
theorem C163_angle_violated (mode : List ℝ → ℝ) (hm : π / 2 < mode [3, 3.1, 3.05, -3]) : ∃ m low high mx F, (∀ fuel, F ≤ fuel →
    (rowNumbers fuel mode "radians".toList (fun j : Fin 4 => some (([3, 3.1, 3.05, -3] : List ℝ)[j])) [3, 3.1, 3.05, -3] (-3)).2 = .ok (some (.interval m low high mx))) ∧ 5.9 < m - mx ∧ low < 0.3 ∧ high < 0.3 := by
  have p1 := pi_gt_d2
  have p2 := pi_lt_d2
  have hw : wrapAngles (mode [3, 3.1, 3.05, -3]) [3, 3.1, 3.05, -3] = [3, 3.1, 3.05, 2 * π - 3] := by
    unfold wrapAngles
    simp only [if_pos hm]
    rw [if_neg (by linarith)]
    norm_num
    ring
  have hg : geterr mode [3, 3.1, 3.05, -3] true = geterr mode [3, 3.1, 3.05, 2 * π - 3] false := by
    unfold geterr
    simp only [if_true, Bool.false_eq_true, if_false]
    rw [hw]
  have hp : ([3, 3.05, 3.1, 2 * π - 3] : List ℝ).Perm [3, 3.1, 3.05, 2 * π - 3] := List.Perm.cons _ (List.Perm.swap _ _ _)
  have hs : ([3, 3.05, 3.1, 2 * π - 3] : List ℝ).Pairwise (· ≤ ·) := by
    simp only [List.pairwise_cons, List.mem_cons, List.not_mem_nil, or_false, forall_eq_or_imp, forall_eq, List.Pairwise.nil, and_true, IsEmpty.forall_iff, implies_true]
    norm_num
    refine ⟨?_, ?_, ?_⟩ <;> linarith
  obtain ⟨med, lo, hi, h1, h2, h3, h4⟩ := C53_values mode [3, 3.1, 3.05, 2 * π - 3] _ (by simp) hp hs
  have f1 : ⌊(0.159 : ℝ) * (4 : ℕ)⌋₊ = 0 := by rw [Nat.floor_eq_zero]; norm_num
  have f2 : ⌊(0.841 : ℝ) * (4 : ℕ)⌋₊ = 3 := by rw [Nat.floor_eq_iff (by norm_num)]; norm_num
  have hlen : ([3, 3.05, 3.1, 2 * π - 3] : List ℝ).length = 4 := rfl
  rw [hlen] at h2 h3 h4
  rw [f1] at h3
  rw [f2] at h4
  simp only [List.getD_cons_zero, List.getD_cons_succ] at h3 h4
  norm_num at h2
  have b1 : lo = 0.075 := by norm_num; linarith
  have b2 : 0.2 < hi ∧ hi < 0.23 := by constructor <;> norm_num <;> linarith
  obtain ⟨m, mx, F, g1, g2, g3⟩ := rowShow_interval med lo hi (-3) (interp (sortedCol (fun j : Fin 4 => some (([3, 3.1, 3.05, -3] : List ℝ)[j]))) ((((sortedCol (fun j : Fin 4 => some (([3, 3.1, 3.05, -3] : List ℝ)[j]))).length : ℝ) - 1) * 0.5))
    (by rw [b1]; norm_num) (by norm_num at b2 ⊢; linarith)
  have r1 := C54_relative lo 2 (le_refl _)
  have r2 := C54_relative hi 2 (le_refl _)
  rw [abs_of_pos (a := lo) (by rw [b1]; norm_num), abs_le] at r1
  rw [abs_of_pos (a := hi) (by norm_num at b2; linarith), abs_le] at r2
  have hmin := min_le_left (roundSig lo 2) (roundSig hi 2)
  rw [abs_le] at g2 g3
  norm_num at r1 r2 b1 b2
  refine ⟨m, roundSig lo 2, roundSig hi 2, mx, F, ?_, ?_, ?_, ?_⟩
  · intro fuel hf
    have hn : ∃ j x, (fun j : Fin 4 => some (([3, 3.1, 3.05, -3] : List ℝ)[j])) j = some x := ⟨0, _, rfl⟩
    unfold rowNumbers
    rw [quantile_eq _ hn (by norm_num) (by norm_num), quantile_eq _ hn (q := 0.159) (by norm_num) (by norm_num), quantile_eq _ hn (q := 0.841) (by norm_num) (by norm_num)]
    simp only [if_true]
    rw [hg]
    rcases hge : geterr mode [3, 3.1, 3.05, 2 * π - 3] false with ⟨c, r⟩
    rw [hge] at h1
    simp only at h1
    subst h1
    simp only
    rw [g1 fuel hf]
  · norm_num; linarith [g2.1, g3.2, r1.2]
  · norm_num; linarith [r1.2]
  · norm_num; linarith [r2.2]

/-! ## the hypotheses can be met -/

theorem quantile_three (a b c : ℝ) (h1 : a ≤ b) (h2 : b ≤ c) : quantile (fun j : Fin 3 => some (([a, b, c] : List ℝ)[j])) 0.159 = some (a + 0.318 * (b - a)) ∧
    quantile (fun j : Fin 3 => some (([a, b, c] : List ℝ)[j])) 0.5 = some b ∧ quantile (fun j : Fin 3 => some (([a, b, c] : List ℝ)[j])) 0.841 = some (b + 0.682 * (c - b)) := by
  have hn : ∃ j x, (fun j : Fin 3 => some (([a, b, c] : List ℝ)[j])) j = some x := ⟨0, _, rfl⟩
  have hs : sortedCol (fun j : Fin 3 => some (([a, b, c] : List ℝ)[j])) = [a, b, c] := by
    refine List.Perm.eq_of_pairwise (le := (· ≤ ·)) (fun a b _ _ h1 h2 => le_antisymm h1 h2) (sortedCol_sorted _) ?_ ((sortedCol_perm _).trans ?_)
    · simp [h1, h2, h1.trans h2]
    · simp [List.reduceOption, List.ofFn_succ]
  have f1 : ⌊((3 : ℕ) - 1 : ℝ) * 0.159⌋₊ = 0 := by rw [Nat.floor_eq_zero]; norm_num
  have f2 : ⌊((3 : ℕ) - 1 : ℝ) * 0.5⌋₊ = 1 := by rw [Nat.floor_eq_iff (by norm_num)]; norm_num
  have f3 : ⌊((3 : ℕ) - 1 : ℝ) * 0.841⌋₊ = 1 := by rw [Nat.floor_eq_iff (by norm_num)]; norm_num
  rw [quantile_eq _ hn (by norm_num) (by norm_num), quantile_eq _ hn (by norm_num) (by norm_num), quantile_eq _ hn (by norm_num) (by norm_num), hs]
  have hl : ([a, b, c] : List ℝ).length = 3 := rfl
  unfold interp
  rw [hl, f1, f2, f3]
  refine ⟨?_, ?_, ?_⟩ <;> norm_num [mul_comm]

/-- Non-vacuity of the first part and of `C163_sign_violated`: three samples 0, 1, 2; and three samples 0, 0, 1, which are not all the same. -/
example : (∃ (lo med hi : ℝ) (table : Fin 3 → Option ℝ), quantile table 0.159 = some lo ∧ quantile table 0.5 = some med ∧ quantile table 0.841 = some hi ∧ 1.1e-12 < med - lo ∧ 1.1e-12 < hi - med) ∧
    ∃ (lo med hi : ℝ) (table : Fin 3 → Option ℝ), quantile table 0.159 = some lo ∧ quantile table 0.5 = some med ∧ quantile table 0.841 = some hi ∧ med - lo ≤ 0.9e-12 ∧ 0.6 < hi - med := by
  obtain ⟨a1, a2, a3⟩ := quantile_three 0 1 2 (by norm_num) (by norm_num)
  obtain ⟨b1, b2, b3⟩ := quantile_three 0 0 1 (by norm_num) (by norm_num)
  exact ⟨⟨_, _, _, _, a1, a2, a3, by norm_num, by norm_num⟩, _, _, _, _, b1, b2, b3, by norm_num, by norm_num⟩

/-- Non-vacuity of the hypotheses on the histogram and on angles: the first sample is a number between the smallest and the largest. -/
example : BinEdge (fun v => v.headD 0) ∧ π / 2 < (fun v : List ℝ => v.headD 0) [3, 3.1, 3.05, -3] ∧ ∀ x ∈ ([3, 3.1, 3.05, -3] : List ℝ), -(2 * π) ≤ x ∧ x < 2 * π := by
  have p1 := pi_gt_d2
  have p2 := pi_lt_d2
  refine ⟨?_, by simp; linarith, ?_⟩
  · intro v hv
    cases v with
    | nil => exact absurd rfl hv
    | cons a l => exact ⟨⟨a, by simp, le_refl _⟩, a, by simp, le_refl _⟩
  · intro x hx
    simp only [List.mem_cons, List.not_mem_nil, or_false] at hx
    rcases hx with rfl | rfl | rfl | rfl <;> constructor <;> norm_num <;> linarith

/-- Non-vacuity of `C163_fixed_violated`: a curvature held at 0.00002. -/
example : |(0.00002 : ℝ)| < 0.00005 := by norm_num [abs_of_pos]

end Radvel
