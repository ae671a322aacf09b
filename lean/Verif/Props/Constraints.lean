import Verif.Lemmas.Prior
import Verif.Props.BasisWitness
import Mathlib.Topology.Order.Basic

/-!
# C43-C46: constraint priors and the baseline prior
-/

namespace Radvel
open Real

/-- The orbital elements of planet `n` in the vector, as the velocity code reads them (`v_to_synth`, rows `5 (n-1) .. 5 (n-1) + 4`). -/
def OrbitAt (s : VState ℝ) (n : Nat) (o : Synth) : Prop :=
  ∃ rows, vToSynth s.params.basis s.params.numPlanets s.rows = .ok rows ∧
    (rows[5 * (n - 1)]?).map Row.value = some o.per ∧ (rows[5 * (n - 1) + 1]?).map Row.value = some o.tp ∧
    (rows[5 * (n - 1) + 2]?).map Row.value = some o.e ∧ (rows[5 * (n - 1) + 3]?).map Row.value = some o.w ∧
    (rows[5 * (n - 1) + 4]?).map Row.value = some o.k

theorem OrbitAt.block {s : VState ℝ} (h : Built s) {n : Nat} (hn : IsPlanet s.params n) {o : Synth} (ho : OrbitAt s n o) :
    vToSynthBlock s.params.basis (rowBlock s.rows (n - 1)) = ⟨o.per, o.tp, o.e, o.w, o.k⟩ := by
  have hsz := h.inv.1.size
  obtain ⟨rows, e1, h0, h1, h2, h3, h4⟩ := ho
  obtain ⟨rows', f1, f2, f3⟩ := vToSynth_block s.params.basis s.params.numPlanets s.rows (by omega)
  rw [e1] at f1; cases f1
  have hlt : n - 1 < s.params.numPlanets := by have := hn.1; have := hn.2; omega
  have g0 := f3 (n - 1) 0 hlt (by omega)
  have g1 := f3 (n - 1) 1 hlt (by omega)
  have g2 := f3 (n - 1) 2 hlt (by omega)
  have g3 := f3 (n - 1) 3 hlt (by omega)
  have g4 := f3 (n - 1) 4 hlt (by omega)
  rw [Nat.add_zero, h0] at g0
  rw [h1] at g1; rw [h2] at g2; rw [h3] at g3; rw [h4] at g4
  simp only [Block.at, Option.some.injEq] at g0 g1 g2 g3 g4
  generalize vToSynthBlock s.params.basis (rowBlock s.rows (n - 1)) = B at *
  cases B
  simp_all

/-- Every planet of a reachable state has orbital elements. -/
theorem OrbitAt.exists {s : VState ℝ} (h : Built s) {n : Nat} (hn : IsPlanet s.params n) : ∃ o, OrbitAt s n o := by
  have hsz := h.inv.1.size
  obtain ⟨rows', f1, f2, f3⟩ := vToSynth_block s.params.basis s.params.numPlanets s.rows (by omega)
  have hlt : n - 1 < s.params.numPlanets := by have := hn.1; have := hn.2; omega
  generalize vToSynthBlock s.params.basis (rowBlock s.rows (n - 1)) = B at f3
  refine ⟨⟨_, _, _, _, _⟩, rows', f1, f3 (n - 1) 0 hlt (by omega), f3 (n - 1) 1 hlt (by omega), f3 (n - 1) 2 hlt (by omega),
    f3 (n - 1) 3 hlt (by omega), f3 (n - 1) 4 hlt (by omega)⟩

/-! ## C43 -/

theorem eccLoop_spec (s : VState ℝ) (finite : Bool) (pairs : List (Nat × ℝ)) (ecc : Nat → ℝ)
    (he : ∀ p ∈ pairs, eccOf s p.1 = .ok (ecc p.1)) :
    ((∃ p ∈ pairs, ecc p.1 > p.2 ∨ ecc p.1 < 0) → eccLoop s finite pairs = .ok (some (rejected finite))) ∧
    ((∀ p ∈ pairs, 0 ≤ ecc p.1 ∧ ecc p.1 ≤ p.2) → eccLoop s finite pairs = .ok none) := by
  induction pairs with
  | nil => exact ⟨fun ⟨p, hp, _⟩ => by simp at hp, fun _ => rfl⟩
  | cons a t ih =>
    have ih := ih (fun p hp => he p (List.mem_cons_of_mem _ hp))
    have ha := he a (by simp)
    obtain ⟨n, lim⟩ := a
    constructor
    · rintro ⟨p, hp, hv⟩
      simp only [eccLoop, ha]
      split
      · rfl
      · rename_i hno
        apply ih.1
        rcases List.mem_cons.1 hp with rfl | hp
        · exact absurd hv hno
        · exact ⟨p, hp, hv⟩
    · intro hall
      simp only [eccLoop, ha]
      have h0 := hall (n, lim) (by simp)
      rw [if_neg (by simp only at h0; push Not; exact ⟨h0.2, h0.1⟩)]
      exact ih.2 (fun p hp => hall p (List.mem_cons_of_mem _ hp))

theorem Fl.sum_log_pos (l : List ℝ) (h : ∀ x ∈ l, 0 < x) : (l.map Fl.log).sum = .fin (l.map Real.log).sum := by
  rw [List.map_congr_left (g := fun x => Fl.fin (Real.log x)) (fun x hx => Fl.log_of_pos (h x hx))]
  rw [← Fl.sum_map_fin, List.map_map]; rfl

/-- C43: in every reachable state, every basis, every list of planets and limits: the prior is the rejection value (`-inf`, or `-1e100` when called by nested
sampling) if some listed planet's eccentricity is negative or above its limit, and otherwise minus the sum of the logs of the limits. -/
theorem C43_ecc (s : VState ℝ) (h : Built s) (pairs : List (Nat × ℝ)) (orb : Nat → Synth)
    (ho : ∀ p ∈ pairs, IsPlanet s.params p.1 ∧ OrbitAt s p.1 (orb p.1)) (finite : Bool) :
    ((∃ p ∈ pairs, (orb p.1).e > p.2 ∨ (orb p.1).e < 0) →
      eccCall pairs s finite = .ok (if finite then .fin (-1e100) else .neg)) ∧
    ((∀ p ∈ pairs, 0 ≤ (orb p.1).e ∧ (orb p.1).e ≤ p.2 ∧ 0 < p.2) →
      eccCall pairs s finite = .ok (.fin (-(pairs.map (fun p => log p.2)).sum))) := by
  have he : ∀ p ∈ pairs, eccOf s p.1 = .ok (orb p.1).e := by
    intro p hp
    obtain ⟨h1, h2⟩ := ho p hp
    rw [eccOf_block h.inv.1 p.1 h1.1 h1.2, h2.block h h1]; rfl
  obtain ⟨l1, l2⟩ := eccLoop_spec s finite pairs (fun n => (orb n).e) he
  constructor
  · intro hv
    unfold eccCall
    rw [l1 hv]; rfl
  · intro hok
    unfold eccCall
    rw [l2 (fun p hp => ⟨(hok p hp).1, (hok p hp).2.1⟩)]
    have := Fl.sum_log_pos (pairs.map Prod.snd) (by
      intro x hx
      obtain ⟨p, hp, rfl⟩ := List.mem_map.1 hx
      exact (hok p hp).2.2)
    rw [List.map_map, List.map_map] at this
    simp only [Function.comp_def] at this
    simp only [this, Fl.minus]

/-- C43, constructor: with a number of planets and one limit the listed planets are `1 .. N`, each with that limit; a list of limits must have
the length of the list of planets. -/
theorem C43_init (N : Nat) (lim : ℝ) (pl : List Nat) (lims : List ℝ) :
    (∃ pairs, eccInit (.inl N) (.inl lim) = .ok pairs ∧ ∀ p, p ∈ pairs ↔ (1 ≤ p.1 ∧ p.1 ≤ N ∧ p.2 = lim)) ∧
    (lims.length = pl.length → eccInit (.inr pl) (.inr lims) = .ok (pl.zip lims)) ∧
    (lims.length ≠ pl.length → eccInit (.inr pl) (.inr lims) = .error .assertionError) := by
  refine ⟨⟨_, rfl, ?_⟩, ?_, ?_⟩
  · rintro ⟨n, x⟩
    simp only [List.mem_map, List.mem_range, Prod.mk.injEq]
    constructor
    · rintro ⟨a, ⟨b, hb, rfl⟩, rfl, rfl⟩; exact ⟨by omega, by omega, rfl⟩
    · rintro ⟨h1, h2, rfl⟩; exact ⟨n, ⟨n - 1, by omega, by omega⟩, rfl, rfl⟩
  · intro h; simp [eccInit, h]
  · intro h; simp [eccInit, h]

/-- A reachable state with one planet in the synth basis. -/
theorem onePlanetInit_built (v : ℝ) : ∃ s, VState.init (Params.init v 1 .perTpEWK none) = .ok s ∧ Built s ∧ s.params.numPlanets = 1 := by
  have hu : UserParams (Params.init v 1 .perTpEWK none) := .new _ _ _ _ (by decide)
  obtain ⟨s, h1, h2, h3, h4, _⟩ := hu.model
  exact ⟨s, h1, .model _ _ hu h1, by rw [h4]; rfl⟩

/-- The hypotheses of C43 are met: a reachable one-planet state, its planet with its elements, and a limit. -/
example : ∃ s, Built s ∧ ∃ orb : Nat → Synth, ∀ p ∈ [(1, (0.99 : ℝ))], IsPlanet s.params p.1 ∧ OrbitAt s p.1 (orb p.1) := by
  obtain ⟨s, _, h2, h3⟩ := onePlanetInit_built 0.5
  have hp : IsPlanet s.params 1 := ⟨le_refl _, by rw [h3]⟩
  obtain ⟨o, ho⟩ := OrbitAt.exists h2 hp
  refine ⟨s, h2, fun _ => o, ?_⟩
  intro p hp'
  simp at hp'
  subst hp'
  exact ⟨hp, ho⟩

/-! ## C44 -/

theorem posKLoop_spec (s : VState ℝ) (finite : Bool) (l : List Nat) (amp : Nat → ℝ) (he : ∀ n ∈ l, ampOf s n = .ok (amp n)) :
    ((∃ n ∈ l, amp n < 0) → posKLoop s finite l = .ok (rejected finite)) ∧
    ((∀ n ∈ l, 0 ≤ amp n) → posKLoop s finite l = .ok (.fin 0)) := by
  induction l with
  | nil => exact ⟨fun ⟨p, hp, _⟩ => by simp at hp, fun _ => rfl⟩
  | cons a t ih =>
    have ih := ih (fun p hp => he p (List.mem_cons_of_mem _ hp))
    have ha := he a (by simp)
    constructor
    · rintro ⟨p, hp, hv⟩
      simp only [posKLoop, ha]
      split
      · rfl
      · rename_i hno
        apply ih.1
        rcases List.mem_cons.1 hp with rfl | hp
        · exact absurd hv hno
        · exact ⟨p, hp, hv⟩
    · intro hall
      simp only [posKLoop, ha]
      rw [if_neg (by have := hall a (by simp); push Not; exact this)]
      exact ih.2 (fun p hp => hall p (List.mem_cons_of_mem _ hp))

theorem mem_planets (N n : Nat) : n ∈ (List.range N).map (· + 1) ↔ 1 ≤ n ∧ n ≤ N := by
  simp only [List.mem_map, List.mem_range]
  constructor
  · rintro ⟨a, h, rfl⟩; omega
  · intro h; exact ⟨n - 1, by omega, by omega⟩

/-- C44 for the bases with an amplitude `k` (missing: the three bases with `logk`, where it is false): rejection exactly when some planet's
amplitude is negative. -/
theorem C44_positive_partial (s : VState ℝ) (h : Built s) (hb : PName.k ∈ s.params.basis.words) (N : Nat) (hN : N ≤ s.params.numPlanets)
    (orb : Nat → Synth) (ho : ∀ n, 1 ≤ n → n ≤ N → OrbitAt s n (orb n)) (finite : Bool) :
    ((∃ n, 1 ≤ n ∧ n ≤ N ∧ (orb n).k < 0) → posKCall N s finite = .ok (if finite then .fin (-1e100) else .neg)) ∧
    ((∀ n, 1 ≤ n → n ≤ N → 0 ≤ (orb n).k) → posKCall N s finite = .ok (.fin 0)) := by
  have he : ∀ n ∈ (List.range N).map (· + 1), ampOf s n = .ok (orb n).k := by
    intro n hn
    obtain ⟨h1, h2⟩ := (mem_planets N n).1 hn
    rw [ampOf_block h.inv.1 n h1 (by omega)]
    have := (ho n h1 h2).block h ⟨h1, by omega⟩
    have h5 : (vToSynthBlock s.params.basis (rowBlock s.rows (n - 1))).x4 = (orb n).k := by rw [this]
    revert h5 hb
    cases s.params.basis <;> simp [vToSynthBlock, Block.at, BasisName.words]
  obtain ⟨l1, l2⟩ := posKLoop_spec s finite _ (fun n => (orb n).k) he
  exact ⟨fun ⟨n, h1, h2, h3⟩ => l1 ⟨n, (mem_planets N n).2 ⟨h1, h2⟩, h3⟩,
    fun hall => l2 (fun n hn => hall n ((mem_planets N n).1 hn).1 ((mem_planets N n).1 hn).2)⟩

/-- C44 in the bases with `logk`: `k{n}` has an index too (the row of `logk{n}`), so the prior rejects exactly when some planet's `logk` is negative, that is
when its amplitude is below 1. -/
theorem C44_logk (s : VState ℝ) (h : Built s) (hb : PName.logk ∈ s.params.basis.words) (N : Nat) (hN : N ≤ s.params.numPlanets)
    (orb : Nat → Synth) (ho : ∀ n, 1 ≤ n → n ≤ N → OrbitAt s n (orb n)) (finite : Bool) :
    ((∃ n, 1 ≤ n ∧ n ≤ N ∧ (orb n).k < 1) → posKCall N s finite = .ok (if finite then .fin (-1e100) else .neg)) ∧
    ((∀ n, 1 ≤ n → n ≤ N → 1 ≤ (orb n).k) → posKCall N s finite = .ok (.fin 0)) := by
  have hk : ∀ n, 1 ≤ n → n ≤ N → (orb n).k = exp ((rowBlock s.rows (n - 1)).at 4) := by
    intro n h1 h2
    have := (ho n h1 h2).block h ⟨h1, by omega⟩
    have h5 : (vToSynthBlock s.params.basis (rowBlock s.rows (n - 1))).x4 = (orb n).k := by rw [this]
    rw [← h5]
    revert hb
    cases s.params.basis <;> simp [vToSynthBlock, Block.at, BasisName.words]
  have he : ∀ n ∈ (List.range N).map (· + 1), ampOf s n = .ok ((rowBlock s.rows (n - 1)).at 4) := by
    intro n hn
    obtain ⟨h1, h2⟩ := (mem_planets N n).1 hn
    exact ampOf_block h.inv.1 n h1 (by omega)
  obtain ⟨l1, l2⟩ := posKLoop_spec s finite _ _ he
  constructor
  · rintro ⟨n, h1, h2, h3⟩
    rw [hk n h1 h2] at h3
    exact l1 ⟨n, (mem_planets N n).2 ⟨h1, h2⟩, by rwa [Real.exp_lt_one_iff] at h3⟩
  · intro hall
    apply l2
    intro n hn
    obtain ⟨h1, h2⟩ := (mem_planets N n).1 hn
    have := hall n h1 h2
    rw [hk n h1 h2] at this
    rwa [Real.one_le_exp_iff] at this

/-- C44 in full is false: in basis `per tc secosw sesinw logk` a planet of amplitude `1/e > 0` is rejected. -/
theorem C44_logk_violated : ∃ s, Built s ∧ (∃ o, OrbitAt s 1 o ∧ o.k = exp (-1) ∧ 0 < o.k) ∧ posKCall 1 s false = .ok .neg := by
  have hu : UserParams (Params.init (-1 : ℝ) 1 .perTcSecoswSesinwLogk none) := .new _ _ _ _ (by decide)
  obtain ⟨s, h1, h2, h3, h4, _⟩ := hu.model
  have hB : Built s := .model _ _ hu h1
  have hp : IsPlanet s.params 1 := ⟨le_refl _, by rw [h4]; exact le_refl _⟩
  obtain ⟨o, ho⟩ := OrbitAt.exists hB hp
  have hrow : (rowBlock s.rows 0).at 4 = -1 := by
    obtain ⟨r, e1, e2⟩ := h2.wordRow .logk 1 (by rw [h4]; decide) hp
    have e3 : valueOf s.params .logk 1 = some (-1) := by rw [h4]; rfl
    rw [e3] at e2
    injection e2 with e2
    have hsz := h2.inv.size
    have := rowBlock_at s.rows 0 4 (by rw [h4] at hsz; simp [Params.init] at hsz; omega) (by omega)
    simp only [Nat.sub_self, Nat.mul_zero, Nat.zero_add, PName.offset] at e1 this
    rw [e1] at this
    simp only [Option.map_some, Option.some.injEq] at this
    rw [← this, ← e2]
  have hk : o.k = exp (-1) := by
    have h5 := ho.block hB hp
    have h6 : (vToSynthBlock s.params.basis (rowBlock s.rows (1 - 1))).x4 = o.k := by rw [h5]
    rw [← h6, h4, ← hrow]
    rfl
  refine ⟨s, hB, ⟨o, ho, hk, by rw [hk]; exact Real.exp_pos _⟩, ?_⟩
  refine (C44_logk s hB (by rw [h4]; decide) 1 (by rw [h4]; exact le_refl _) (fun _ => o) ?_ false).1 ⟨1, le_refl _, le_refl _, ?_⟩
  · intro n a b
    obtain rfl : n = 1 := by omega
    exact ho
  · show o.k < 1
    rw [hk, Real.exp_lt_one_iff]; norm_num

/-- The hypotheses of `C44_positive_partial` are met by a reachable one-planet state. -/
example : ∃ s, Built s ∧ PName.k ∈ s.params.basis.words ∧ 1 ≤ s.params.numPlanets ∧ ∃ o, OrbitAt s 1 o := by
  have hu : UserParams (Params.init (-1 : ℝ) 1 .perTpEWK none) := .new _ _ _ _ (by decide)
  obtain ⟨s, h1, h2, h3, h4, _⟩ := hu.model
  have hB : Built s := .model _ _ hu h1
  have hp : IsPlanet s.params 1 := ⟨le_refl _, by rw [h4]; exact le_refl _⟩
  exact ⟨s, hB, by rw [h4]; decide, hp.2, OrbitAt.exists hB hp⟩

/-! ## C45 -/

/-- C45: the baseline prior is `min 0 (log ((B + D)/per))`: zero up to `B + D`, never positive, non-increasing, strictly decreasing beyond,
continuous, for all positive periods and all `B + D > 0`. -/
theorem C45_baseline (B D : ℝ) (hBD : 0 < B + D) : ∃ g : ℝ → ℝ,
    (∀ per, 0 < per → baselineLogpdf false B D per = .fin (g per)) ∧ (∀ per, per ≤ B + D → g per = 0) ∧ (∀ per, g per ≤ 0) ∧
    (∀ a b, a ≤ b → g b ≤ g a) ∧ (∀ a b, B + D ≤ a → a < b → g b < g a) ∧ Continuous g := by
  have hmax : ∀ per, 0 < max per (B + D) := fun per => lt_of_lt_of_le hBD (le_max_right _ _)
  have hle : ∀ per, (B + D) / max per (B + D) ≤ 1 := fun per => (div_le_one (hmax per)).2 (le_max_right _ _)
  refine ⟨fun per => log ((B + D) / max per (B + D)), ?_, ?_, ?_, ?_, ?_, ?_⟩
  · intro per hper
    unfold baselineLogpdf
    simp only [Bool.false_eq_true, if_false]
    by_cases h : per - D ≤ B
    · rw [if_pos h, max_eq_right (by linarith), div_self hBD.ne', Real.log_one]
    · rw [if_neg h, max_eq_left (by linarith), Fl.log_of_pos (by positivity)]
  · intro per h
    show log ((B + D) / max per (B + D)) = 0
    rw [max_eq_right h, div_self hBD.ne', Real.log_one]
  · intro per
    exact Real.log_nonpos (div_nonneg hBD.le (hmax per).le) (hle per)
  · intro a b hab
    apply Real.log_le_log (div_pos hBD (hmax b))
    exact div_le_div_of_nonneg_left hBD.le (hmax a) (max_le_max_right _ hab)
  · intro a b ha hab
    apply Real.log_lt_log (div_pos hBD (hmax b))
    apply div_lt_div_of_pos_left hBD (hmax a)
    rw [max_eq_left ha, max_eq_left (by linarith)]
    exact hab
  · apply Continuous.log
    · apply Continuous.div continuous_const (by fun_prop)
      intro x; exact (hmax x).ne'
    · intro x; exact (div_pos hBD (hmax x)).ne'

/-- C45: a planet's prior is the same through `per{n}` and through `logper{n}`. -/
theorem C45_logper (n : Nat) (B D per : ℝ) (hper : 0 < per) :
    Prior.logpdf1 (.baseline (.orb .logper n) B D) (log per) = Prior.logpdf1 (.baseline (.orb .per n) B D) per := by
  have h1 : isLogper (.orb .logper n) = true := by
    simp [isLogper, Key.render, PName.chars, List.isPrefixOf]
  have h2 : isLogper (.orb .per n) = false := by
    simp [isLogper, Key.render, PName.chars, List.isPrefixOf]
  simp [Prior.logpdf1, h1, h2, baselineLogpdf, Real.exp_log hper]

example : (0 : ℝ) < 100 + 0.1 ∧ (0 : ℝ) < 365.25 := by norm_num

/-! ## C46 -/

theorem secEclipse_value (s : VState ℝ) (n : Nat) (o : Synth) (ho : OrbitAt s n o) (ts err : ℝ) :
    secEclipseCall n ts err s = .ok (gaussianLogpdf (phaseOf (ts - o.tp) o.per) (err / o.per)
      (phaseOf (timeperiToTimetrans o.tp o.per o.e o.w true - o.tp) o.per)) := by
  obtain ⟨rows, e1, h0, h1, h2, h3, h4⟩ := ho
  have r0 : synthRow rows n 0 = .ok o.per := synthRow_eq h0
  have r1 : synthRow rows n 1 = .ok o.tp := synthRow_eq h1
  have r2 : synthRow rows n 2 = .ok o.e := synthRow_eq h2
  have r3 : synthRow rows n 3 = .ok o.w := synthRow_eq h3
  simp [secEclipseCall, tToPhaseVector, e1, r0, r1, r2, r3, bind, Except.bind, pure, Except.pure]

/-- C46, whole periods: shifting the measured eclipse time by any number of periods does not change the prior, in any basis. -/
theorem C46_shift (s : VState ℝ) (n : Nat) (o : Synth) (ho : OrbitAt s n o) (hper : 0 < o.per)
    (ts err : ℝ) (m : ℤ) : secEclipseCall n (ts + m * o.per) err s = secEclipseCall n ts err s := by
  rw [secEclipse_value s n o ho, secEclipse_value s n o ho]
  rw [show ts + m * o.per - o.tp = (ts - o.tp) + m * o.per by ring, phaseOf_add_int _ _ hper.ne']

/-- C46, closeness (missing: phases across periastron, where it is false): measured at a phase distance `δ` from the predicted eclipse, both phases counted from
periastron and without wrapping, the prior is the Gaussian of `δ` periods. -/
theorem C46_close_partial (s : VState ℝ) (n : Nat) (o : Synth) (ho : OrbitAt s n o) (hper : 0 < o.per)
    (ts err δ : ℝ) (herr : err ≠ 0)
    (hδ : phaseOf (timeperiToTimetrans o.tp o.per o.e o.w true - o.tp) o.per - phaseOf (ts - o.tp) o.per = δ) :
    secEclipseCall n ts err s = .ok (.fin (-0.5 * (δ * o.per / err) ^ 2 - 0.5 * log ((err / o.per) ^ 2 * 2 * π))) := by
  rw [secEclipse_value s n o ho]
  unfold gaussianLogpdf
  rw [if_neg (div_ne_zero herr hper.ne'), hδ]
  congr 3
  field_simp

/-- C46 in full is false: for a circular orbit with `w = 3π/2` the eclipse is at periastron (phase 0). An eclipse measured `δ` periods after the predicted one is
penalised as `δ` periods, one measured `δ` periods before it as `1 - δ` periods. -/
theorem C46_wrap_violated (per err δ : ℝ) (hper : 0 < per) (herr : err ≠ 0) (h0 : 0 < δ) (h1 : δ < 1) :
    ∃ s, Built s ∧ OrbitAt s 1 ⟨per, 0, 0, 3 * π / 2, 1⟩ ∧ timeperiToTimetrans 0 per 0 (3 * π / 2) true = per ∧
      secEclipseCall 1 (per + δ * per) err s = .ok (.fin (-0.5 * (δ * per / err) ^ 2 - 0.5 * log ((err / per) ^ 2 * 2 * π))) ∧
      secEclipseCall 1 (per - δ * per) err s = .ok (.fin (-0.5 * ((1 - δ) * per / err) ^ 2 - 0.5 * log ((err / per) ^ 2 * 2 * π))) := by
  have hpred : timeperiToTimetrans 0 per 0 (3 * π / 2) true = per := by
    have n1 : ¬ ((1 : ℝ) ≤ 0) := by norm_num
    unfold timeperiToTimetrans
    simp [eccAnomalyAt, n1]
  let p0 := Params.init (0 : ℝ) 1 .perTpEWK none
  let p := ((p0.setItem (.orb .per 1) { value := per }).setItem (.orb .w 1) { value := 3 * π / 2 }).setItem (.orb .k 1) { value := 1 }
  have hu0 : UserParams p0 := .new _ _ _ _ (by decide)
  have hu : UserParams p := by
    refine .set _ _ _ (.set _ _ _ (.set _ _ _ hu0 (.inl ?_) (fun h => nomatch h)) (.inl ?_) (fun h => nomatch h)) (.inl ?_) (fun h => nomatch h) <;>
      (show _ ∈ [_, _, _, _, _]; simp)
  obtain ⟨s, e1, e2, e3, e4, _⟩ := hu.model
  have hB : Built s := .model _ _ hu e1
  have hp : IsPlanet s.params 1 := ⟨le_refl _, by rw [e4]; exact le_refl _⟩
  have hval : ∀ x ∈ s.params.basis.words, ∃ r : Row ℝ, s.rows[x.offset]? = some r ∧ valueOf s.params x 1 = some r.value := by
    intro x hx
    obtain ⟨r, f1, f2⟩ := e2.wordRow x 1 hx hp
    exact ⟨r, by simpa using f1, f2⟩
  rw [e4] at hval
  have hw : ∀ x ∈ BasisName.perTpEWK.words, x ∈ p.basis.words := fun x hx => hx
  have ho : OrbitAt s 1 ⟨per, 0, 0, 3 * π / 2, 1⟩ := by
    obtain ⟨r0, a0, b0⟩ := hval .per (hw _ (by decide))
    obtain ⟨r1, a1, b1⟩ := hval .tp (hw _ (by decide))
    obtain ⟨r2, a2, b2⟩ := hval .e (hw _ (by decide))
    obtain ⟨r3, a3, b3⟩ := hval .w (hw _ (by decide))
    obtain ⟨r4, a4, b4⟩ := hval .k (hw _ (by decide))
    have c0 : valueOf p .per 1 = some per := rfl
    have c1 : valueOf p .tp 1 = some 0 := rfl
    have c2 : valueOf p .e 1 = some 0 := rfl
    have c3 : valueOf p .w 1 = some (3 * π / 2) := rfl
    have c4 : valueOf p .k 1 = some 1 := rfl
    rw [c0] at b0; rw [c1] at b1; rw [c2] at b2; rw [c3] at b3; rw [c4] at b4
    simp only [PName.offset] at a0 a1 a2 a3 a4
    refine ⟨s.rows, by rw [e4]; rfl, ?_, ?_, ?_, ?_, ?_⟩ <;> simp [a0, a1, a2, a3, a4, ← b0, ← b1, ← b2, ← b3, ← b4]
  have hph1 : phaseOf (timeperiToTimetrans 0 per 0 (3 * π / 2) true - 0) per = 0 := by
    rw [hpred, phaseOf, sub_zero, div_self hper.ne']; simp
  have hph2 : phaseOf (per + δ * per - 0) per = δ := by
    have hf : ⌊(per + δ * per - 0) / per⌋ = 1 := by
      rw [show (per + δ * per - 0) / per = 1 + δ by field_simp; ring]
      rw [Int.floor_eq_iff]; push_cast; constructor <;> linarith
    unfold phaseOf
    rw [hf]
    field_simp
    push_cast
    ring
  have hph3 : phaseOf (per - δ * per - 0) per = 1 - δ := by
    have hf : ⌊(per - δ * per - 0) / per⌋ = 0 := by
      rw [show (per - δ * per - 0) / per = 1 - δ by field_simp; ring]
      rw [Int.floor_eq_iff]; push_cast; constructor <;> linarith
    unfold phaseOf
    rw [hf]
    field_simp
    push_cast
    ring
  refine ⟨s, hB, ho, hpred, ?_, ?_⟩
  · rw [C46_close_partial s 1 _ ho hper (per + δ * per) err (0 - δ) herr (by rw [hph1, hph2])]
    rw [show ((0 - δ) * per / err) ^ 2 = (δ * per / err) ^ 2 by ring]
  · rw [C46_close_partial s 1 _ ho hper (per - δ * per) err (0 - (1 - δ)) herr (by rw [hph1, hph3])]
    rw [show ((0 - (1 - δ)) * per / err) ^ 2 = ((1 - δ) * per / err) ^ 2 by ring]

/-- Non-vacuity of `C46_shift` and `C46_close_partial`: a circular orbit of ten days whose eclipse, at periastron, is measured one day late. -/
example : ∃ s, Built s ∧ OrbitAt s 1 ⟨10, 0, 0, 3 * π / 2, 1⟩ ∧
    phaseOf (timeperiToTimetrans 0 10 0 (3 * π / 2) true - 0) 10 - phaseOf (11 - 0) 10 = -(1 / 10) := by
  obtain ⟨s, h1, h2, h3, _⟩ := C46_wrap_violated 10 1 (1 / 10) (by norm_num) (by norm_num) (by norm_num) (by norm_num)
  refine ⟨s, h1, h2, ?_⟩
  rw [h3]
  have e1 : ⌊(10 - 0 : ℝ) / 10⌋ = 1 := by norm_num
  have e2 : ⌊(11 - 0 : ℝ) / 10⌋ = 1 := by rw [Int.floor_eq_iff]; norm_num
  unfold phaseOf
  rw [e1, e2]
  norm_num

end Radvel
