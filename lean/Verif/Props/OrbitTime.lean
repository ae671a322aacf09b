import Verif.Props.OrbitPlot
import Verif.Props.Numbers

/-!
# C143: the time axis
-/

namespace Radvel
open Real

theorem maxReal_spec {l : List ℝ} {b : ℝ} (h : maxReal l = .ok b) : b ∈ l ∧ ∀ x ∈ l, x ≤ b := by
  cases l with
  | nil => cases h
  | cons a t =>
    have := Except.ok.inj h
    subst this
    have : (a :: t).max? = some (t.foldl max a) := rfl
    exact List.max?_eq_some_iff.1 this

theorem minReal_spec {l : List ℝ} {b : ℝ} (h : minReal l = .ok b) : b ∈ l ∧ ∀ x ∈ l, b ≤ x := by
  cases l with
  | nil => cases h
  | cons a t =>
    have := Except.ok.inj h
    subst this
    have : (a :: t).min? = some (t.foldl min a) := rfl
    exact List.min?_eq_some_iff.1 this

theorem linspace_left (a b : ℝ) (n : Nat) (hn : 2 ≤ n) : a ∈ linspace a b n := by
  refine List.mem_map.2 ⟨0, by simp; omega, by simp⟩

theorem linspace_right (a b : ℝ) (n : Nat) (hn : 2 ≤ n) : b ∈ linspace a b n := by
  refine List.mem_map.2 ⟨n - 1, by simp; omega, ?_⟩
  rw [Nat.cast_sub (by omega)]
  have : (n : ℝ) - 1 ≠ 0 := by
    have : (2 : ℝ) ≤ n := by exact_mod_cast hn
    intro h; linarith
  push_cast
  field_simp
  ring

theorem linspace_mem (a b : ℝ) (n : Nat) (hn : 2 ≤ n) (hab : a ≤ b) : ∀ x ∈ linspace a b n, a ≤ x ∧ x ≤ b := by
  intro x hx
  obtain ⟨i, hi, rfl⟩ := List.mem_map.1 hx
  simp only [List.mem_range] at hi
  have h2 : (2 : ℝ) ≤ n := by exact_mod_cast hn
  have hi' : (i : ℝ) ≤ n - 1 := by
    have : (i : ℝ) + 1 ≤ n := by exact_mod_cast hi
    linarith
  have hw : 0 ≤ (b - a) / ((n : ℝ) - 1) := div_nonneg (by linarith) (by linarith)
  have h1 : (i : ℝ) * ((b - a) / ((n : ℝ) - 1)) ≤ ((n : ℝ) - 1) * ((b - a) / ((n : ℝ) - 1)) := mul_le_mul_of_nonneg_right hi' hw
  rw [mul_div_cancel₀ _ (by intro h; linarith)] at h1
  have h0 : 0 ≤ (i : ℝ) * ((b - a) / ((n : ℝ) - 1)) := mul_nonneg (Nat.cast_nonneg _) hw
  exact ⟨by linarith, by linarith⟩

theorem two_le_res (a : PlotArgs) : 2 ≤ (if a.saveplot then 10000 else 2000 : Nat) := by split <;> norm_num

/-- The longest period, with positive periods and data. -/
theorem longPeriod_nonneg (dflt : ℝ) (p q : Params ℝ) (hp : Complete p) (hq : toSynth dflt p.basis true p = .ok q) (orb : Nat → Synth) (ho : Elements p orb)
    (hper : ∀ m, IsPlanet p m → 0 < (orb m).per) (times : List ℝ) (longp : ℝ) (h : longPeriod q p.numPlanets times = .ok longp) : 0 ≤ longp := by
  rw [longPeriod_eq dflt p q hp hq orb ho] at h
  split_ifs at h with h0
  · rcases hb : maxReal times with e | b
    · rw [hb] at h; cases h
    · rcases ha : minReal times with e | a
      · rw [hb, ha] at h; cases h
      · rw [hb, ha] at h
        cases Except.ok.inj h
        have h1 := (maxReal_spec hb).2 a (minReal_spec ha).1
        linarith
  · obtain ⟨h1, _⟩ := maxReal_spec h
    obtain ⟨i, hi, rfl⟩ := List.mem_map.1 h1
    simp only [List.mem_range] at hi
    exact (hper (i + 1) ⟨by omega, by omega⟩).le

/-- C143: an observation at time `t` is drawn at `t - epoch`, for the epoch on the axis; for times that are already small compared with the epoch, at `t`. An epoch of 0 stands for 2450000. -/
theorem C143_place_partial (dflt : ℝ) (drive : Drive) (tb : ℝ) (s : VState ℝ) (Ls : List RVLike) (h : Likes s Ls) (dv : RVLike → List String) (dc : RVLike → String → ℝ) (hd : ∀ L ∈ Ls, PlainDecorr s.params L (dv L) (dc L))
    (hn : (Ls.map RVLike.suffix).Nodup) (a : PlotArgs) (f : OrbitFig) (hf : orbitInit dflt drive tb s Ls a = .ok f) :
    ((∃ x ∈ allObs Ls, x.2.t < a.epoch - 2400000) → f.epoch = a.epoch ∧ f.plttimes = (allObs Ls).map (fun x => x.2.t) ∧ f.mplttimes = f.rvmodt) ∧
    ((∀ x ∈ allObs Ls, a.epoch - 2400000 ≤ x.2.t) → f.plttimes = (allObs Ls).map (fun x => x.2.t - f.epoch) ∧ f.mplttimes = f.rvmodt.map (· - f.epoch) ∧
      (a.epoch ≠ 0 → f.epoch = a.epoch) ∧ (a.epoch = 0 → f.epoch = 2450000)) := by
  obtain ⟨s1, longp, g, hc, hb1, e2, e3, e4, e5, e6, e7, e8, e9, e10, e11⟩ := orbitInit_fig dflt drive tb s Ls h dv dc hd hn a f hf
  have htimes : Ls.flatMap (fun L => L.obs.map Obs.t) = (allObs Ls).map (fun x => x.2.t) := flatMap_allObs Ls (fun _ o => o.t)
  have k1 : f.epoch = (epochOf a.epoch ((allObs Ls).map (fun x => x.2.t))).1 := by rw [← htimes, e11]; rfl
  have k2 : f.plttimes = ((allObs Ls).map (fun x => x.2.t)).map (· - (epochOf a.epoch ((allObs Ls).map (fun x => x.2.t))).2) := by rw [← htimes, e11]; rfl
  have k3 : f.mplttimes = f.rvmodt.map (· - (epochOf a.epoch ((allObs Ls).map (fun x => x.2.t))).2) := by rw [← htimes, e11]; rfl
  constructor
  · rintro ⟨x, hx, hxt⟩
    have hr : epochOf a.epoch ((allObs Ls).map (fun x => x.2.t)) = (a.epoch, 0) := by
      unfold epochOf
      rw [if_pos ⟨x.2.t, List.mem_map.2 ⟨x, hx, rfl⟩, by norm_num; linarith⟩]
    rw [hr] at k1 k2 k3
    exact ⟨k1, by rw [k2]; simp, by rw [k3]; simp⟩
  · intro hall
    have hr : ¬ ∃ t ∈ (allObs Ls).map (fun x => x.2.t), t - a.epoch < -2.4e6 := by
      rintro ⟨t, ht, hlt⟩
      obtain ⟨x, hx, rfl⟩ := List.mem_map.1 ht
      have := hall x hx
      norm_num at hlt
      linarith
    by_cases h0 : a.epoch = 0
    · have hr : epochOf a.epoch ((allObs Ls).map (fun x => x.2.t)) = (2450000, 2450000) := by
        unfold epochOf
        rw [if_neg hr, if_pos h0]
      rw [hr] at k1 k2 k3
      simp only at k1 k2 k3
      rw [k1]
      refine ⟨by rw [k2, List.map_map]; rfl, k3, fun hc => absurd h0 hc, fun _ => rfl⟩
    · have hr : epochOf a.epoch ((allObs Ls).map (fun x => x.2.t)) = (a.epoch, a.epoch) := by
        unfold epochOf
        rw [if_neg hr, if_neg h0]
      rw [hr] at k1 k2 k3
      simp only at k1 k2 k3
      rw [k1]
      refine ⟨by rw [k2, List.map_map]; rfl, k3, fun _ => rfl, fun hc => absurd hc h0⟩

/-- C143: without `set_xlim` every observation is within the axis and the curve is drawn over the whole of it. -/
theorem C143_covered_partial (dflt : ℝ) (drive : Drive) (tb : ℝ) (s : VState ℝ) (Ls : List RVLike) (h : Likes s Ls) (dv : RVLike → List String) (dc : RVLike → String → ℝ) (hd : ∀ L ∈ Ls, PlainDecorr s.params L (dv L) (dc L))
    (hn : (Ls.map RVLike.suffix).Nodup) (a : PlotArgs) (f : OrbitFig) (hf : orbitInit dflt drive tb s Ls a = .ok f) (ha : a.setXlim = none)
    (orb : Nat → Synth) (ho : Elements s.params orb) (hper : ∀ m, IsPlanet s.params m → 0 < (orb m).per) :
    ∃ x0 x1, f.xlim = .ok (x0, x1) ∧ (∀ t ∈ f.plttimes, x0 ≤ t ∧ t ≤ x1) ∧ (∃ t ∈ f.mplttimes, t ≤ x0) ∧ (∃ t ∈ f.mplttimes, x1 ≤ t) := by
  obtain ⟨s1, longp, g, hc, hb1, e2, e3, e4, e5, e6, e7, e8, e9, e10, e11⟩ := orbitInit_fig dflt drive tb s Ls h dv dc hd hn a f hf
  have hlp := longPeriod_nonneg dflt s.params f.params hc e7 orb ho hper _ _ e8
  have htimes : Ls.flatMap (fun L => L.obs.map Obs.t) = (allObs Ls).map (fun x => x.2.t) := flatMap_allObs Ls (fun _ o => o.t)
  set times := (allObs Ls).map (fun x => x.2.t) with htd
  set sub := (epochOf a.epoch times).2 with hsub
  have k2 : f.plttimes = times.map (· - sub) := by rw [hsub, ← htimes, e11]; rfl
  have k3 : f.mplttimes = f.rvmodt.map (· - sub) := by rw [hsub, ← htimes, e11]; rfl
  have k4 : f.rvmodt = linspace g.2.1 g.2.2 (if a.saveplot then 10000 else 2000) := by rw [e11]; rfl
  have k5 : f.dt = g.1 := by rw [e11]; rfl
  have k6 : f.args = a := by rw [e11]; rfl
  unfold gridOf at e9
  rw [ha] at e9
  rcases hb : maxReal times with e | b
  · simp only [hb] at e9; cases e9
  rcases hm : minReal times with e | c
  · simp only [hb, hm] at e9; cases e9
  simp only [hb, hm, bind, Except.bind] at e9
  have hg := Except.ok.inj e9
  subst hg
  obtain ⟨hbm, hbmax⟩ := maxReal_spec hb
  obtain ⟨hcm, hcmin⟩ := minReal_spec hm
  have hcb := hbmax c hcm
  have hpl : f.plttimes ≠ [] := by rw [k2]; intro hc; rw [List.map_eq_nil_iff] at hc; rw [hc] at hbm; cases hbm
  obtain ⟨B, hB⟩ := maxReal_ok _ hpl
  obtain ⟨C, hC⟩ := minReal_ok _ hpl
  obtain ⟨hB1, hB2⟩ := maxReal_spec hB
  obtain ⟨hC1, hC2⟩ := minReal_spec hC
  have hBb : B ≤ b - sub := by
    rw [k2] at hB1
    obtain ⟨t, ht, rfl⟩ := List.mem_map.1 hB1
    have := hbmax t ht
    linarith
  have hCc : c - sub ≤ C := by
    rw [k2] at hC1
    obtain ⟨t, ht, rfl⟩ := List.mem_map.1 hC1
    have := hcmin t ht
    linarith
  simp only at k4 k5
  refine ⟨C - 0.01 * f.dt, B + 0.01 * f.dt, ?_, ?_, ?_, ?_⟩
  · unfold OrbitFig.xlim
    rw [k6, ha, hB, hC]
    rfl
  · intro t ht
    have := hB2 t ht
    have := hC2 t ht
    rw [k5]
    constructor <;> norm_num <;> linarith
  · refine ⟨c - 0.05 * (b - c) - sub, ?_, ?_⟩
    · rw [k3, k4]; exact List.mem_map.2 ⟨_, linspace_left _ _ _ (two_le_res a), rfl⟩
    · rw [k5]; norm_num; linarith
  · refine ⟨b + 0.05 * (b - c) + longp - sub, ?_, ?_⟩
    · rw [k3, k4]; exact List.mem_map.2 ⟨_, linspace_right _ _ _ (two_le_res a), rfl⟩
    · rw [k5]; norm_num; linarith

/-- The curve for a chosen range. -/
theorem grid_xlim (dflt : ℝ) (drive : Drive) (tb : ℝ) (s : VState ℝ) (Ls : List RVLike) (h : Likes s Ls) (dv : RVLike → List String) (dc : RVLike → String → ℝ) (hd : ∀ L ∈ Ls, PlainDecorr s.params L (dv L) (dc L))
    (hn : (Ls.map RVLike.suffix).Nodup) (a : PlotArgs) (f : OrbitFig) (hf : orbitInit dflt drive tb s Ls a = .ok f) (x0 x1 : ℝ) (ha : a.setXlim = some (x0, x1))
    (orb : Nat → Synth) (ho : Elements s.params orb) (hper : ∀ m, IsPlanet s.params m → 0 < (orb m).per) :
    f.xlim = .ok (x0, x1) ∧ ∃ longp, 0 ≤ longp ∧ f.rvmodt = linspace (x0 + a.epoch - 0.05 * (x1 - x0)) (x1 + a.epoch + 0.05 * (x1 - x0) + longp) (if a.saveplot then 10000 else 2000) ∧
      longPeriod f.params s.params.numPlanets ((allObs Ls).map (fun x => x.2.t)) = .ok longp := by
  obtain ⟨s1, longp, g, hc, hb1, e2, e3, e4, e5, e6, e7, e8, e9, e10, e11⟩ := orbitInit_fig dflt drive tb s Ls h dv dc hd hn a f hf
  have hlp := longPeriod_nonneg dflt s.params f.params hc e7 orb ho hper _ _ e8
  have k4 : f.rvmodt = linspace g.2.1 g.2.2 (if a.saveplot then 10000 else 2000) := by rw [e11]; rfl
  have k6 : f.args = a := by rw [e11]; rfl
  unfold gridOf at e9
  rw [ha] at e9
  have hg := Except.ok.inj e9
  subst hg
  refine ⟨?_, longp, hlp, k4, e8⟩
  unfold OrbitFig.xlim
  rw [k6, ha]

/-- C143 for a chosen range: if the times are full Julian dates and the epoch is not 0, the axis is the chosen range and the curve is drawn over the whole of it. -/
theorem C143_chosen_partial (dflt : ℝ) (drive : Drive) (tb : ℝ) (s : VState ℝ) (Ls : List RVLike) (h : Likes s Ls) (dv : RVLike → List String) (dc : RVLike → String → ℝ) (hd : ∀ L ∈ Ls, PlainDecorr s.params L (dv L) (dc L))
    (hn : (Ls.map RVLike.suffix).Nodup) (a : PlotArgs) (f : OrbitFig) (hf : orbitInit dflt drive tb s Ls a = .ok f) (x0 x1 : ℝ) (ha : a.setXlim = some (x0, x1)) (hx : x0 ≤ x1)
    (orb : Nat → Synth) (ho : Elements s.params orb) (hper : ∀ m, IsPlanet s.params m → 0 < (orb m).per)
    (hfull : ∀ x ∈ allObs Ls, a.epoch - 2400000 ≤ x.2.t) (h0 : a.epoch ≠ 0) :
    f.xlim = .ok (x0, x1) ∧ (∃ t ∈ f.mplttimes, t ≤ x0) ∧ (∃ t ∈ f.mplttimes, x1 ≤ t) := by
  obtain ⟨k1, longp, hlp, k2, _⟩ := grid_xlim dflt drive tb s Ls h dv dc hd hn a f hf x0 x1 ha orb ho hper
  obtain ⟨_, k3, k4, _⟩ := (C143_place_partial dflt drive tb s Ls h dv dc hd hn a f hf).2 hfull
  refine ⟨k1, ⟨x0 + a.epoch - 0.05 * (x1 - x0) - a.epoch, ?_, ?_⟩, ⟨x1 + a.epoch + 0.05 * (x1 - x0) + longp - a.epoch, ?_, ?_⟩⟩
  · rw [k3, k4 h0, k2]; exact List.mem_map.2 ⟨_, linspace_left _ _ _ (two_le_res a), rfl⟩
  · norm_num; linarith
  · rw [k3, k4 h0, k2]; exact List.mem_map.2 ⟨_, linspace_right _ _ _ (two_le_res a), rfl⟩
  · norm_num; linarith

/-- C143 in full is false for a chosen range and times given as Julian date minus the epoch: the observations are drawn at their times, but the whole curve is drawn beyond the right end of the
axis, since the epoch is added to its times and never subtracted. -/
theorem C143_reduced_violated (dflt : ℝ) (drive : Drive) (tb : ℝ) (s : VState ℝ) (Ls : List RVLike) (h : Likes s Ls) (dv : RVLike → List String) (dc : RVLike → String → ℝ) (hd : ∀ L ∈ Ls, PlainDecorr s.params L (dv L) (dc L))
    (hn : (Ls.map RVLike.suffix).Nodup) (a : PlotArgs) (f : OrbitFig) (hf : orbitInit dflt drive tb s Ls a = .ok f) (x0 x1 : ℝ) (ha : a.setXlim = some (x0, x1)) (hx : x0 ≤ x1)
    (orb : Nat → Synth) (ho : Elements s.params orb) (hper : ∀ m, IsPlanet s.params m → 0 < (orb m).per)
    (hred : ∃ x ∈ allObs Ls, x.2.t < a.epoch - 2400000) (hw : 1.05 * (x1 - x0) < a.epoch) :
    f.xlim = .ok (x0, x1) ∧ f.plttimes = (allObs Ls).map (fun x => x.2.t) ∧ ∀ t ∈ f.mplttimes, x1 < t := by
  obtain ⟨k1, longp, hlp, k2, _⟩ := grid_xlim dflt drive tb s Ls h dv dc hd hn a f hf x0 x1 ha orb ho hper
  obtain ⟨_, k3, k4⟩ := (C143_place_partial dflt drive tb s Ls h dv dc hd hn a f hf).1 hred
  refine ⟨k1, k3, ?_⟩
  intro t ht
  rw [k4, k2] at ht
  have := (linspace_mem _ _ _ (two_le_res a) (by norm_num; linarith) t ht).1
  norm_num at this hw
  linarith

/-- C143 in full is false for a chosen range with `epoch=0`, which the figure itself replaces by 2450000: the whole curve is drawn beyond the left end of the axis, since its times were chosen before the
replacement. -/
theorem C143_epoch_violated (dflt : ℝ) (drive : Drive) (tb : ℝ) (s : VState ℝ) (Ls : List RVLike) (h : Likes s Ls) (dv : RVLike → List String) (dc : RVLike → String → ℝ) (hd : ∀ L ∈ Ls, PlainDecorr s.params L (dv L) (dc L))
    (hn : (Ls.map RVLike.suffix).Nodup) (a : PlotArgs) (f : OrbitFig) (hf : orbitInit dflt drive tb s Ls a = .ok f) (x0 x1 : ℝ) (ha : a.setXlim = some (x0, x1)) (hx : x0 ≤ x1)
    (orb : Nat → Synth) (ho : Elements s.params orb) (hper : ∀ m, IsPlanet s.params m → 0 < (orb m).per)
    (hfull : ∀ x ∈ allObs Ls, -2400000 ≤ x.2.t) (h0 : a.epoch = 0) (hw : 1.05 * (x1 - x0) + 10000 < 2450000) (hpmax : ∀ m, IsPlanet s.params m → (orb m).per ≤ 10000)
    (hpl : 1 ≤ s.params.numPlanets) :
    f.xlim = .ok (x0, x1) ∧ f.epoch = 2450000 ∧ ∀ t ∈ f.mplttimes, t < x0 := by
  obtain ⟨k1, longp, hlp, k2, k5⟩ := grid_xlim dflt drive tb s Ls h dv dc hd hn a f hf x0 x1 ha orb ho hper
  obtain ⟨_, k3, _, k4⟩ := (C143_place_partial dflt drive tb s Ls h dv dc hd hn a f hf).2 (by rw [h0]; intro x hx; linarith [hfull x hx])
  obtain ⟨s1, _, g, hc, _, _, _, _, _, _, e7, _⟩ := orbitInit_fig dflt drive tb s Ls h dv dc hd hn a f hf
  rw [longPeriod_eq dflt _ _ hc e7 orb ho, if_neg (by omega)] at k5
  have hlp2 : longp ≤ 10000 := by
    obtain ⟨h1, _⟩ := maxReal_spec k5
    obtain ⟨i, hi, rfl⟩ := List.mem_map.1 h1
    simp only [List.mem_range] at hi
    exact hpmax (i + 1) ⟨by omega, by omega⟩
  refine ⟨k1, k4 h0, ?_⟩
  intro t ht
  rw [k3, k4 h0, k2] at ht
  obtain ⟨u, hu, rfl⟩ := List.mem_map.1 ht
  have := (linspace_mem _ _ _ (two_le_res a) (by norm_num; linarith) u hu).2
  rw [h0] at this
  norm_num at this hw
  linarith

/-- C143: for an epoch that is a whole number, as the default, the axis is labelled with the number that is subtracted. -/
theorem C143_label_partial (f : OrbitFig) (z : ℤ) (h : f.epoch = z) : (f.label : ℝ) = f.epoch := by
  unfold OrbitFig.label
  rw [h, roundEven_int]

/-- C143 in full is false for an epoch that is not a whole number, such as 2450000.5: the axis is labelled with another number than the one that is subtracted. -/
theorem C143_label_violated (f : OrbitFig) (h : ∀ z : ℤ, f.epoch ≠ z) : (f.label : ℝ) ≠ f.epoch := fun hc => h _ hc.symm

/-- Non-vacuity of C143. -/
example (drive : Drive) : ∃ s L f, Likes s [L] ∧ orbitInit 0 drive 0 s [L] {} = .ok f ∧ f.label = 2450000 ∧ f.plttimes = [5000, 5001] ∧
    ∃ x0 x1, f.xlim = .ok (x0, x1) ∧ ∃ t ∈ f.mplttimes, x1 ≤ t := by
  obtain ⟨s, L, f, orb, h1, h2, h3, h4, h5, h6, h7, h8, h9, g, hg⟩ := figWitness [{ t := 2455000, y := 3, err := 1 }, { t := 2455001, y := 3, err := 1 }] (by simp) drive 0 {}
  obtain ⟨k1, _, k3, _⟩ := (C143_place_partial 0 drive 0 s [L] h1 (fun _ => ["x"]) (fun _ _ => 7) (by simpa using h3) (by simp) {} f h4).2 (by
    simp only [allObs, List.flatMap_cons, List.flatMap_nil, List.append_nil, h2, List.map_cons, List.map_nil, List.mem_cons, List.not_mem_nil, or_false, forall_eq_or_imp, forall_eq]
    norm_num)
  have he := k3 (by norm_num)
  simp only at he
  obtain ⟨x0, x1, a1, _, _, a4⟩ := C143_covered_partial 0 drive 0 s [L] h1 (fun _ => ["x"]) (fun _ _ => 7) (by simpa using h3) (by simp) {} f h4 rfl orb h5 (by
    intro m hm
    have : m = 1 := by have := hm.1; have := hm.2; omega
    rw [this, h8]; norm_num)
  refine ⟨s, L, f, h1, h4, ?_, ?_, x0, x1, a1, a4⟩
  · have := C143_label_partial f 2450000 (by rw [he]; norm_num)
    rw [he] at this
    exact_mod_cast this
  · rw [k1, he]
    simp only [allObs, List.flatMap_cons, List.flatMap_nil, List.append_nil, h2, List.map_cons, List.map_nil]
    norm_num

/-- Non-vacuity of the three failures. -/
example (drive : Drive) : (∃ s L f, Likes s [L] ∧ orbitInit 0 drive 0 s [L] { setXlim := some (0, 100) } = .ok f ∧ f.xlim = .ok (0, 100) ∧ f.plttimes = [50] ∧ ∀ t ∈ f.mplttimes, 100 < t) ∧
    (∃ s L f, Likes s [L] ∧ orbitInit 0 drive 0 s [L] { setXlim := some (5000, 5100), epoch := 0 } = .ok f ∧ f.plttimes = [5050] ∧ ∀ t ∈ f.mplttimes, t < 5000) ∧
    ∃ s L f, Likes s [L] ∧ orbitInit 0 drive 0 s [L] { epoch := 2450000.5 } = .ok f ∧ (f.label : ℝ) ≠ f.epoch := by
  refine ⟨?_, ?_, ?_⟩
  · obtain ⟨s, L, f, orb, h1, h2, h3, h4, h5, h6, h7, h8, h9, g, hg⟩ := figWitness [{ t := 50, y := 3, err := 1 }] (by simp) drive 0 { setXlim := some (0, 100) }
    have hall : allObs [L] = [(L, { t := 50, y := 3, err := 1 })] := by simp [allObs, h2]
    obtain ⟨a1, a2, a3⟩ := C143_reduced_violated 0 drive 0 s [L] h1 (fun _ => ["x"]) (fun _ _ => 7) (by simpa using h3) (by simp) _ f h4 0 100 rfl (by norm_num) orb h5 (by
      intro m hm
      have : m = 1 := by have := hm.1; have := hm.2; omega
      rw [this, h8]; norm_num) ⟨_, by rw [hall]; exact List.mem_singleton.2 rfl, by norm_num⟩ (by norm_num)
    exact ⟨s, L, f, h1, h4, a1, by rw [a2, hall]; rfl, a3⟩
  · obtain ⟨s, L, f, orb, h1, h2, h3, h4, h5, h6, h7, h8, h9, g, hg⟩ := figWitness [{ t := 2455050, y := 3, err := 1 }] (by simp) drive 0 { setXlim := some (5000, 5100), epoch := 0 }
    have hall : allObs [L] = [(L, { t := 2455050, y := 3, err := 1 })] := by simp [allObs, h2]
    have hfull : ∀ x ∈ allObs [L], (-2400000 : ℝ) ≤ x.2.t := by
      rw [hall]; simp only [List.mem_singleton, forall_eq]; norm_num
    obtain ⟨a1, a2, a3⟩ := C143_epoch_violated 0 drive 0 s [L] h1 (fun _ => ["x"]) (fun _ _ => 7) (by simpa using h3) (by simp) _ f h4 5000 5100 rfl (by norm_num) orb h5 (by
      intro m hm
      have : m = 1 := by have := hm.1; have := hm.2; omega
      rw [this, h8]; norm_num) hfull rfl (by norm_num) (by
      intro m hm
      have : m = 1 := by have := hm.1; have := hm.2; omega
      rw [this, h8]; norm_num) (by omega)
    obtain ⟨k1, _⟩ := (C143_place_partial 0 drive 0 s [L] h1 (fun _ => ["x"]) (fun _ _ => 7) (by simpa using h3) (by simp) _ f h4).2 (by intro x hx; have := hfull x hx; simp only; linarith)
    refine ⟨s, L, f, h1, h4, ?_, a3⟩
    rw [k1, a2, hall]
    norm_num
  · obtain ⟨s, L, f, orb, h1, h2, h3, h4, h5, h6, h7, h8, h9, g, hg⟩ := figWitness [{ t := 2455050, y := 3, err := 1 }] (by simp) drive 0 { epoch := 2450000.5 }
    have hall : allObs [L] = [(L, { t := 2455050, y := 3, err := 1 })] := by simp [allObs, h2]
    obtain ⟨_, _, k3, _⟩ := (C143_place_partial 0 drive 0 s [L] h1 (fun _ => ["x"]) (fun _ _ => 7) (by simpa using h3) (by simp) _ f h4).2 (by
      rw [hall]; simp only [List.mem_singleton, forall_eq]; norm_num)
    have he := k3 (by norm_num)
    refine ⟨s, L, f, h1, h4, C143_label_violated f ?_⟩
    intro z hz
    rw [he] at hz
    have h2 : (2 * z : ℝ) = 4900001 := by rw [← hz]; norm_num
    have : (2 * z : ℤ) = 4900001 := by exact_mod_cast h2
    omega

end Radvel
