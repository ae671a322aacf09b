import Verif.Model.YearAxis
import Verif.Spec.YearAxis
import Verif.Props.OrbitTime

/-!
# The axis in years (C183)
-/

namespace Radvel

/-- Years begin every 365.2425 days, up to 1.5 days early and 0.75 days late. -/
theorem newYear_near (y : ℤ) : -1.5 ≤ newYear y - 1721060.2575 - 365.2425 * y ∧ newYear y - 1721060.2575 - 365.2425 * y ≤ 0.75 := by
  have h : -600 ≤ 400 * (julianDay y 1 1 - 1721060) - 146097 * y - 303 ∧ 400 * (julianDay y 1 1 - 1721060) - 146097 * y - 303 ≤ 300 := by
    unfold julianDay
    norm_num
    constructor <;> omega
  obtain ⟨h1, h2⟩ := h
  have h1' : (-600 : ℝ) ≤ 400 * (julianDay y 1 1 - 1721060) - 146097 * y - 303 := by exact_mod_cast h1
  have h2' : 400 * ((julianDay y 1 1 : ℝ) - 1721060) - 146097 * y - 303 ≤ 300 := by exact_mod_cast h2
  unfold newYear
  norm_num
  constructor <;> linarith

theorem newYear_lt (y : ℤ) : newYear y < newYear (y + 1) := by
  have h : julianDay y 1 1 < julianDay (y + 1) 1 1 := by
    unfold julianDay
    norm_num
    omega
  have h' : (julianDay y 1 1 : ℝ) < julianDay (y + 1) 1 1 := by exact_mod_cast h
  unfold newYear
  linarith

/-- Every time is in one year. -/
theorem exists_year (t : ℝ) : ∃ y : ℤ, newYear y ≤ t ∧ t < newYear (y + 1) := by
  obtain ⟨y, hy, hmax⟩ := Int.exists_greatest_of_bdd (P := fun y => newYear y ≤ t)
    ⟨⌈(t - 1721058) / 365.2425⌉, fun z hz => by
      have h := (newYear_near z).1
      have : (z : ℝ) ≤ (t - 1721058) / 365.2425 := by
        rw [le_div_iff₀ (by norm_num)]
        norm_num at h ⊢
        linarith
      exact_mod_cast this.trans (Int.le_ceil _)⟩
    ⟨⌊(t - 1721062) / 365.2425⌋, by
      have h := (newYear_near ⌊(t - 1721062) / 365.2425⌋).2
      have h2 := Int.floor_le ((t - 1721062) / 365.2425)
      rw [le_div_iff₀ (by norm_num)] at h2
      norm_num at h h2 ⊢
      linarith⟩
  refine ⟨y, hy, ?_⟩
  by_contra hc
  push Not at hc
  have := hmax (y + 1) hc
  omega

/-- Years as numbers are nearly proportional to time. -/
theorem decimalYear_near {Y : ℝ → ℝ} (hY : IsDecimalYear Y) (t : ℝ) : -1.5 ≤ t - 1721060.2575 - 365.2425 * Y t ∧ t - 1721060.2575 - 365.2425 * Y t ≤ 0.75 := by
  obtain ⟨y, h1, h2⟩ := exists_year t
  rw [hY y t h1 h2]
  have hd : 0 < newYear (y + 1) - newYear y := by linarith
  set f := (t - newYear y) / (newYear (y + 1) - newYear y) with hf
  have hf0 : 0 ≤ f := div_nonneg (by linarith) hd.le
  have hf1 : f ≤ 1 := by rw [hf, div_le_one hd]; linarith
  have ht : t = newYear y + f * (newYear (y + 1) - newYear y) := by rw [hf, div_mul_cancel₀ _ hd.ne']; ring
  obtain ⟨a1, a2⟩ := newYear_near y
  obtain ⟨b1, b2⟩ := newYear_near (y + 1)
  push_cast at b1 b2
  generalize newYear y = A at *
  generalize newYear (y + 1) = B at *
  have e : t - 1721060.2575 - 365.2425 * (y + f) = (1 - f) * (A - 1721060.2575 - 365.2425 * y) + f * (B - 1721060.2575 - 365.2425 * (y + 1)) := by
    rw [ht]; ring
  rw [e]
  have c1 := mul_le_mul_of_nonneg_left a1 (show 0 ≤ 1 - f by linarith)
  have c2 := mul_le_mul_of_nonneg_left a2 (show 0 ≤ 1 - f by linarith)
  have c3 := mul_le_mul_of_nonneg_left b1 hf0
  have c4 := mul_le_mul_of_nonneg_left b2 hf0
  constructor <;> linarith

/-- Reading the upper axis, up to 2.25 days. -/
theorem axisAbove_near {Y : ℝ → ℝ} (hY : IsDecimalYear Y) {x0 x1 c p : ℝ} (h : x0 < x1) (hp : x0 ≤ p) (hp1 : p ≤ x1) : |axisAbove x0 x1 (Y (x0 + c)) (Y (x1 + c)) p - Y (p + c)| ≤ 2.25 / 365.2425 := by
  obtain ⟨a1, a2⟩ := decimalYear_near hY (x0 + c)
  obtain ⟨b1, b2⟩ := decimalYear_near hY (x1 + c)
  obtain ⟨d1, d2⟩ := decimalYear_near hY (p + c)
  have hd : 0 < x1 - x0 := by linarith
  unfold axisAbove
  set f := (p - x0) / (x1 - x0) with hf
  have hf0 : 0 ≤ f := div_nonneg (by linarith) hd.le
  have hf1 : f ≤ 1 := by rw [hf, div_le_one hd]; linarith
  have hpe : p = x0 + f * (x1 - x0) := by rw [hf, div_mul_cancel₀ _ hd.ne']; ring
  generalize Y (x0 + c) = A at *
  generalize Y (x1 + c) = B at *
  generalize Y (p + c) = D at *
  have e : 365.2425 * (A + f * (B - A)) = p + c - 1721060.2575 - ((1 - f) * (x0 + c - 1721060.2575 - 365.2425 * A) + f * (x1 + c - 1721060.2575 - 365.2425 * B)) := by
    rw [hpe]; ring
  have c1 := mul_le_mul_of_nonneg_left a1 (show 0 ≤ 1 - f by linarith)
  have c2 := mul_le_mul_of_nonneg_left a2 (show 0 ≤ 1 - f by linarith)
  have c3 := mul_le_mul_of_nonneg_left b1 hf0
  have c4 := mul_le_mul_of_nonneg_left b2 hf0
  generalize A + f * (B - A) = R at *
  rw [abs_le, ← neg_div, div_le_iff₀ (by norm_num), le_div_iff₀ (by norm_num)]
  constructor <;> linarith

theorem years_eq {f : OrbitFig} {Y : ℝ → ℝ} {x0 x1 : ℝ} (h : f.xlim = .ok (x0, x1)) : f.years Y = .ok (Y (x0 + f.epoch), Y (x1 + f.epoch)) := by
  unfold OrbitFig.years
  rw [h]
  rfl

/-- C183: for full Julian dates the number on the upper axis above a visible observation is the year in which it was made, up to 0.0062 (two and a quarter days); likewise for dates that were reduced by the epoch, if one of them is before
`epoch - 2400000` (missing: dates that were reduced by another number, see below). -/
theorem C183_year_partial (dflt : ℝ) (drive : Drive) (tb : ℝ) (s : VState ℝ) (Ls : List RVLike) (h : Likes s Ls) (dv : RVLike → List String) (dc : RVLike → String → ℝ) (hd : ∀ L ∈ Ls, PlainDecorr s.params L (dv L) (dc L))
    (hn : (Ls.map RVLike.suffix).Nodup) (a : PlotArgs) (f : OrbitFig) (hf : orbitInit dflt drive tb s Ls a = .ok f) (Y : ℝ → ℝ) (hY : IsDecimalYear Y) (x0 x1 : ℝ) (hx : f.xlim = .ok (x0, x1)) (hlt : x0 < x1)
    (jd : RVLike × Obs → ℝ) (hjd : (∀ x ∈ allObs Ls, jd x = x.2.t ∧ a.epoch - 2400000 ≤ x.2.t) ∨ ((∀ x ∈ allObs Ls, jd x = x.2.t + a.epoch) ∧ ∃ x ∈ allObs Ls, x.2.t < a.epoch - 2400000)) :
    ∃ y0 y1, f.years Y = .ok (y0, y1) ∧
      ∀ (i : Nat) x p, (allObs Ls)[i]? = some x → f.plttimes[i]? = some p → x0 ≤ p → p ≤ x1 → |axisAbove x0 x1 y0 y1 p - Y (jd x)| ≤ 0.0062 := by
  refine ⟨_, _, years_eq hx, ?_⟩
  intro i x p hi hp h0 h1
  have hxm : x ∈ allObs Ls := List.mem_of_getElem? hi
  obtain ⟨k1, k2⟩ := C143_place_partial dflt drive tb s Ls h dv dc hd hn a f hf
  have hj : p + f.epoch = jd x := by
    rcases hjd with hjd | ⟨hj, hr⟩
    · obtain ⟨e1, _⟩ := k2 fun x hx => (hjd x hx).2
      rw [e1, List.getElem?_map, hi] at hp
      cases hp
      rw [(hjd x hxm).1]
      ring
    · obtain ⟨e0, e1, _⟩ := k1 hr
      rw [e1, List.getElem?_map, hi] at hp
      cases hp
      rw [hj x hxm, e0]
  rw [← hj]
  refine (axisAbove_near hY hlt h0 h1).trans ?_
  norm_num

/-- C183 in full is false for dates reduced by another number, such as the modified Julian dates `JD - 2400000.5`: with the default epoch, observations after 1995 are shown more than 4400 years before the year 0. -/
theorem C183_modified_violated (dflt : ℝ) (drive : Drive) (tb : ℝ) (s : VState ℝ) (Ls : List RVLike) (h : Likes s Ls) (dv : RVLike → List String) (dc : RVLike → String → ℝ) (hd : ∀ L ∈ Ls, PlainDecorr s.params L (dv L) (dc L))
    (hn : (Ls.map RVLike.suffix).Nodup) (a : PlotArgs) (f : OrbitFig) (hf : orbitInit dflt drive tb s Ls a = .ok f) (ha : a.epoch = 2450000) (Y : ℝ → ℝ) (hY : IsDecimalYear Y) (x0 x1 : ℝ) (hx : f.xlim = .ok (x0, x1)) (hlt : x0 < x1)
    (jd : RVLike × Obs → ℝ) (hjd : ∀ x ∈ allObs Ls, x.2.t = jd x - 2400000.5 ∧ 2450000.5 ≤ jd x ∧ jd x ≤ 2490000) :
    ∃ y0 y1, f.years Y = .ok (y0, y1) ∧
      ∀ (i : Nat) x p, (allObs Ls)[i]? = some x → f.plttimes[i]? = some p → x0 ≤ p → p ≤ x1 → axisAbove x0 x1 y0 y1 p < -4400 ∧ 1995 < Y (jd x) := by
  have hall : ∀ x ∈ allObs Ls, a.epoch - 2400000 ≤ x.2.t := by
    intro x hx
    obtain ⟨j1, j2, _⟩ := hjd x hx
    rw [ha]
    norm_num at j1 j2 ⊢
    linarith
  obtain ⟨y0, y1, hy, hr⟩ := C183_year_partial dflt drive tb s Ls h dv dc hd hn a f hf Y hY x0 x1 hx hlt (fun x => x.2.t) (.inl fun x hx => ⟨rfl, hall x hx⟩)
  refine ⟨y0, y1, hy, ?_⟩
  intro i x p hi hp h0 h1
  obtain ⟨j1, j2, j3⟩ := hjd x (List.mem_of_getElem? hi)
  have hb := (abs_le.1 (hr i x p hi hp h0 h1)).2
  have hn1 := (decimalYear_near hY x.2.t).1
  have hn2 := (decimalYear_near hY (jd x)).2
  norm_num at hb hn1 hn2 j1 j2 j3 ⊢
  constructor <;> linarith

/-- C183 in full is false for figures with Gaussian processes: a line is drawn whose height is the year, against the axis of the velocities. From 1900 on a vertical axis that contains all that is drawn, such as the one matplotlib chooses with
`yscale_auto`, goes beyond 1899 m/s, whatever the velocities are. -/
theorem C183_line_violated (f : OrbitFig) (Y : ℝ → ℝ) (hY : IsDecimalYear Y) (x0 x1 : ℝ) (hx : f.xlim = .ok (x0, x1)) (h : 2415021 ≤ x0 + f.epoch) :
    ∃ l, f.gpYearLine Y = .ok l ∧ ∀ b t : ℝ, (∀ q ∈ l, b ≤ q.2 ∧ q.2 ≤ t) → 1899 < t := by
  refine ⟨[(Y (x0 + f.epoch), Y (x0 + f.epoch)), (Y (x1 + f.epoch), Y (x1 + f.epoch))], ?_, ?_⟩
  · unfold OrbitFig.gpYearLine
    rw [years_eq hx]
    rfl
  · intro b t hq
    have h1 := (hq _ (List.mem_cons_self ..)).2
    have h2 := (decimalYear_near hY (x0 + f.epoch)).2
    simp only at h1
    norm_num at h2 ⊢
    linarith

/-- There is such a function. -/
theorem exists_decimalYear : ∃ Y, IsDecimalYear Y := by
  choose g h1 h2 using exists_year
  refine ⟨fun t => g t + (t - newYear (g t)) / (newYear (g t + 1) - newYear (g t)), ?_⟩
  intro y t hy hy1
  have hmono : StrictMono newYear := strictMono_int_of_lt_succ newYear_lt
  have e : g t = y := by
    have a := hmono.lt_iff_lt.1 (lt_of_le_of_lt (h1 t) hy1)
    have b := hmono.lt_iff_lt.1 (lt_of_le_of_lt hy (h2 t))
    omega
  simp only [e]

/-- The hypotheses of C183 hold for figures of two observations of 2009, in Julian dates and in modified ones; the year 2009 begins at 2454832.5. -/
example (drive : Drive) (t : ℝ) (ht : t = 2455000 ∨ t = 54999.5) : ∃ s L f Y, Likes s [L] ∧ orbitInit 0 drive 0 s [L] {} = .ok f ∧ IsDecimalYear Y ∧ Y 2454832.5 = 2009 ∧
    ∃ x0 x1 y0 y1 p, f.xlim = .ok (x0, x1) ∧ f.years Y = .ok (y0, y1) ∧ f.plttimes[0]? = some p ∧
      (t = 2455000 → |axisAbove x0 x1 y0 y1 p - Y 2455000| ≤ 0.0062) ∧ (t = 54999.5 → axisAbove x0 x1 y0 y1 p < -4400) := by
  obtain ⟨Y, hY⟩ := exists_decimalYear
  obtain ⟨s, L, f, orb, h1, h2, h3, h4, h5, h6, h7, h8, h9, g, hg⟩ := figWitness [{ t := t, y := 3, err := 1 }, { t := t + 1, y := 3, err := 1 }] (by simp) drive 0 {}
  have hall : allObs [L] = [(L, { t := t, y := 3, err := 1 }), (L, { t := t + 1, y := 3, err := 1 })] := by simp [allObs, h2]
  have h50 : ∀ x ∈ allObs [L], ({} : PlotArgs).epoch - 2400000 ≤ x.2.t := by
    rw [hall]
    simp only [List.mem_cons, List.not_mem_nil, or_false, forall_eq_or_imp, forall_eq]
    rcases ht with rfl | rfl <;> norm_num
  obtain ⟨k1, _, k3, _⟩ := (C143_place_partial 0 drive 0 s [L] h1 (fun _ => ["x"]) (fun _ _ => 7) (by simpa using h3) (by simp) {} f h4).2 h50
  have he := k3 (by norm_num)
  rw [hall] at k1
  simp only [List.map_cons, List.map_nil] at k1
  obtain ⟨x0, x1, a1, a2, _⟩ := C143_covered_partial 0 drive 0 s [L] h1 (fun _ => ["x"]) (fun _ _ => 7) (by simpa using h3) (by simp) {} f h4 rfl orb h5 (by
    intro m hm
    have : m = 1 := by have := hm.1; have := hm.2; omega
    rw [this, h8]; norm_num)
  rw [k1] at a2
  have b1 := a2 (t - f.epoch) (by simp)
  have b2 := a2 (t + 1 - f.epoch) (by simp)
  have hlt : x0 < x1 := by linarith [b1.1, b2.2]
  refine ⟨s, L, f, Y, h1, h4, hY, ?_, x0, x1, _, _, t - f.epoch, a1, years_eq a1, by rw [k1]; rfl, ?_, ?_⟩
  · have := hY 2009 2454832.5 (by norm_num [newYear, julianDay]) (by norm_num [newYear, julianDay])
    rw [this]
    norm_num [newYear, julianDay]
  · rintro rfl
    obtain ⟨y0, y1, hy, hr⟩ := C183_year_partial 0 drive 0 s [L] h1 (fun _ => ["x"]) (fun _ _ => 7) (by simpa using h3) (by simp) {} f h4 Y hY x0 x1 a1 hlt (fun x => x.2.t) (.inl fun x hx => ⟨rfl, h50 x hx⟩)
    rw [years_eq a1] at hy
    cases hy
    exact hr 0 _ _ (by rw [hall]; rfl) (by rw [k1]; rfl) b1.1 b1.2
  · rintro rfl
    obtain ⟨y0, y1, hy, hr⟩ := C183_modified_violated 0 drive 0 s [L] h1 (fun _ => ["x"]) (fun _ _ => 7) (by simpa using h3) (by simp) {} f h4 rfl Y hY x0 x1 a1 hlt (fun x => x.2.t + 2400000.5) (by
      rw [hall]
      simp only [List.mem_cons, List.not_mem_nil, or_false, forall_eq_or_imp, forall_eq]
      norm_num)
    rw [years_eq a1] at hy
    cases hy
    exact (hr 0 _ _ (by rw [hall]; rfl) (by rw [k1]; rfl) b1.1 b1.2).1

/-- The hypotheses of `C183_line_violated` hold for a figure from Julian date 2455000 to 2455100. -/
example (drive : Drive) : ∃ s L f Y, Likes s [L] ∧ orbitInit 0 drive 0 s [L] { setXlim := some (5000, 5100) } = .ok f ∧ IsDecimalYear Y ∧ f.xlim = .ok (5000, 5100) ∧ 2415021 ≤ 5000 + f.epoch := by
  obtain ⟨Y, hY⟩ := exists_decimalYear
  obtain ⟨s, L, f, orb, h1, h2, h3, h4, h5, h6, h7, h8, h9, g, hg⟩ := figWitness [{ t := 2455050, y := 3, err := 1 }] (by simp) drive 0 { setXlim := some (5000, 5100) }
  have hall : allObs [L] = [(L, { t := 2455050, y := 3, err := 1 })] := by simp [allObs, h2]
  have hfull : ∀ x ∈ allObs [L], ({ setXlim := some (5000, 5100) } : PlotArgs).epoch - 2400000 ≤ x.2.t := by
    rw [hall]; simp only [List.mem_singleton, forall_eq]; norm_num
  obtain ⟨_, _, k3, _⟩ := (C143_place_partial 0 drive 0 s [L] h1 (fun _ => ["x"]) (fun _ _ => 7) (by simpa using h3) (by simp) _ f h4).2 hfull
  have hx := (C143_chosen_partial 0 drive 0 s [L] h1 (fun _ => ["x"]) (fun _ _ => 7) (by simpa using h3) (by simp) _ f h4 5000 5100 rfl (by norm_num) orb h5 (by
    intro m hm
    have : m = 1 := by have := hm.1; have := hm.2; omega
    rw [this, h8]; norm_num) hfull (by norm_num)).1
  refine ⟨s, L, f, Y, h1, h4, hY, hx, ?_⟩
  rw [k3 (by norm_num)]
  norm_num

end Radvel
