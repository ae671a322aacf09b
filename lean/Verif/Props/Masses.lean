import Verif.Model.Masses
import Mathlib.Analysis.SpecialFunctions.Pow.Continuity
import Mathlib.Topology.Order.IntermediateValue
import Mathlib.Tactic.Linarith
import Mathlib.Tactic.FieldSimp
import Mathlib.Tactic.Positivity

/-!
# Property theorems C57, C58, C94
-/

namespace Radvel
open Real

/-- Physical constants are positive. -/
structure Consts.Pos (c : Consts) : Prop where
  G : 0 < c.G
  Msun : 0 < c.Msun
  Mjup : 0 < c.Mjup
  Mearth : 0 < c.Mearth
  au : 0 < c.au
  Rearth : 0 < c.Rearth
  Rjup : 0 < c.Rjup

/-- The constants of astropy (CODATA 2018, IAU 2015). -/
noncomputable def astropy : Consts :=
  ⟨6.6743e-11, 1.988409870698051e30, 1.8981245973360505e27, 5.972167867791379e24, 1.495978707e11, 6378100, 71492000⟩

theorem astropy_pos : astropy.Pos := by constructor <;> norm_num [astropy]

/-- A planet of mass `m` (in the given units) on an orbit with period `P` days and eccentricity `e` around a star of `M` solar masses. -/
structure Planet where
  m : ℝ
  P : ℝ
  M : ℝ
  e : ℝ

/-- Positive mass, period and stellar mass, `0 ≤ e < 1`. -/
structure Planet.Phys (p : Planet) : Prop where
  m : 0 < p.m
  P : 0 < p.P
  M : 0 < p.M
  e0 : 0 ≤ p.e
  e1 : p.e < 1

/-- The mass of the unit in Jupiter masses. -/
noncomputable def unitMass (c : Consts) : MassUnits → ℝ
  | .earth => c.Mearth / c.Mjup
  | _ => 1

theorem inv_amp (e P M x : ℝ) (hP : 0 < P) (hM : 0 < M) (h0 : 0 ≤ e) (h1 : e < 1) :
    (K0 * (1 - e ^ 2) ^ (-0.5 : ℝ) * x * toYears P ^ (-1.0 / 3.0 : ℝ) * M ^ (-2.0 / 3.0 : ℝ)) / K0 * √(1.0 - e ^ (2.0 : ℝ)) * M ^ (2.0 / 3.0 : ℝ) *
      toYears P ^ (1 / 3.0 : ℝ) = x := by
  have hK : K0 ≠ 0 := by unfold K0; norm_num
  have hy : 0 < toYears P := by unfold toYears; positivity
  have he : 0 < 1 - e ^ 2 := by nlinarith
  have e2 : e ^ (2.0 : ℝ) = e ^ 2 := by rw [show (2.0 : ℝ) = ((2 : ℕ) : ℝ) by norm_num, Real.rpow_natCast]
  have a1 : (1 - e ^ 2) ^ (-0.5 : ℝ) * √(1.0 - e ^ (2.0 : ℝ)) = 1 := by
    rw [e2, Real.sqrt_eq_rpow, show (1.0 : ℝ) = 1 by norm_num, ← Real.rpow_add he, show (-0.5 + 1 / 2 : ℝ) = 0 by norm_num, Real.rpow_zero]
  have a2 : toYears P ^ (-1.0 / 3.0 : ℝ) * toYears P ^ (1 / 3.0 : ℝ) = 1 := by
    rw [← Real.rpow_add hy, show (-1.0 / 3.0 + 1 / 3.0 : ℝ) = 0 by norm_num, Real.rpow_zero]
  have a3 : M ^ (-2.0 / 3.0 : ℝ) * M ^ (2.0 / 3.0 : ℝ) = 1 := by
    rw [← Real.rpow_add hM, show (-2.0 / 3.0 + 2.0 / 3.0 : ℝ) = 0 by norm_num, Real.rpow_zero]
  calc _ = (K0 / K0) * x * ((1 - e ^ 2) ^ (-0.5 : ℝ) * √(1.0 - e ^ (2.0 : ℝ))) * (toYears P ^ (-1.0 / 3.0 : ℝ) * toYears P ^ (1 / 3.0 : ℝ)) *
        (M ^ (-2.0 / 3.0 : ℝ) * M ^ (2.0 / 3.0 : ℝ)) := by ring
    _ = x := by rw [a1, a2, a3, div_self hK]; ring

/-- C57, light planets: for any list of planets, none heavier than a tenth of its star, in either unit of mass, `Msini` applied to the semi-amplitudes of the planets returns the
masses. -/
theorem C57_inverse (root : (ℝ → Option ℝ) → ℝ → ℝ) (c : Consts) (hc : c.Pos) (units : MassUnits) (hu : units ≠ .other) (ps : List Planet) (hp : ∀ p ∈ ps, p.Phys)
    (hl : ∀ p ∈ ps, p.m * unitMass c units * c.Mjup ≤ p.M * c.Msun / 10) :
    ∃ rows : List Star, List.Forall₂ (fun p s => s.P = p.P ∧ s.M = p.M ∧ s.e = p.e ∧ semiAmplitude c p.m p.P p.M p.e units = .ok s.K) ps rows ∧
      msini root c rows units = .ok (ps.map (·.m)) := by
  have hMs := hc.Msun
  have hMj := hc.Mjup
  have hMe := hc.Mearth
  let amp : Planet → ℝ := fun p => K0 * (1 - p.e ^ 2) ^ (-0.5 : ℝ) * (p.m * unitMass c units) * toYears p.P ^ (-1.0 / 3.0 : ℝ) * p.M ^ (-2.0 / 3.0 : ℝ)
  let row : Planet → Star := fun p => ⟨amp p, p.P, p.M, p.e⟩
  have hamp : ∀ p, semiAmplitude c p.m p.P p.M p.e units = .ok (amp p) := by
    intro p
    cases units with
    | jupiter => simp [semiAmplitude, amp, unitMass]
    | earth => simp only [semiAmplitude, amp, unitMass, mul_div_assoc]
    | other => exact absurd rfl hu
  have hlight : ∀ p ∈ ps, lightMsini c (row p) = p.m * unitMass c units := by
    intro p h
    have hph := hp p h
    unfold lightMsini
    simp only [row]
    rw [mul_div_cancel_right₀ _ (ne_of_gt hMs)]
    exact inv_amp p.e p.P p.M _ hph.P hph.M hph.e0 hph.e1
  have hnot : (ps.map row).any (isHeavy c) = false := by
    rw [Bool.eq_false_iff]
    intro hany
    rw [List.any_map, List.any_eq_true] at hany
    obtain ⟨p, h, hh⟩ := hany
    simp only [Function.comp, isHeavy, decide_eq_true_eq] at hh
    rw [hlight p h] at hh
    have hM := (hp p h).M
    have := hl p h
    simp only [row] at hh
    rw [mul_div_cancel_right₀ p.M (ne_of_gt hMs), gt_iff_lt, lt_div_iff₀ hM, lt_div_iff₀ hMs] at hh
    nlinarith
  refine ⟨ps.map row, ?_, ?_⟩
  · clear hp hl hlight hnot
    induction ps with
    | nil => exact .nil
    | cons p ps ih => exact .cons ⟨rfl, rfl, rfl, hamp p⟩ ih
  · unfold msini
    simp only [hnot, Bool.false_eq_true, if_false]
    have hmap : (ps.map row).map (lightMsini c) = ps.map (fun p => p.m * unitMass c units) := by
      rw [List.map_map]
      exact List.map_congr_left (fun p h => hlight p h)
    rw [hmap]
    cases units with
    | jupiter => simp [unitMass]
    | earth =>
      simp only [List.map_map, Except.ok.injEq]
      apply List.map_congr_left
      intro p _
      simp only [Function.comp, unitMass]
      field_simp
    | other => exact absurd rfl hu

/-- Non-vacuity of C57: Jupiter and the Earth. -/
example : (∀ p ∈ [(⟨1, 4332, 1, 0.05⟩ : Planet), ⟨0.003, 365, 1, 0.02⟩], p.Phys) ∧
    ∀ p ∈ [(⟨1, 4332, 1, 0.05⟩ : Planet), ⟨0.003, 365, 1, 0.02⟩], p.m * unitMass astropy .jupiter * astropy.Mjup ≤ p.M * astropy.Msun / 10 := by
  constructor
  · intro p h
    simp only [List.mem_cons, List.not_mem_nil, or_false] at h
    rcases h with rfl | rfl <;> constructor <;> norm_num
  · intro p h
    simp only [List.mem_cons, List.not_mem_nil, or_false] at h
    rcases h with rfl | rfl <;> norm_num [unitMass, astropy]

/-- The exact relation between semi-amplitude and mass of two bodies (SI): `K √(1-e²) = (2πG/P)^{1/3} x / (M + x)^{2/3}`. -/
def TwoBody (c : Consts) (s : Star) (x : ℝ) : Prop :=
  0 < x ∧ s.K * √(1 - s.e ^ 2) * (s.M * c.Msun + x) ^ (2 / 3 : ℝ) = (2 * π * c.G / toSeconds s.P) ^ (1 / 3 : ℝ) * x

theorem coef_pos (c : Consts) (hc : c.Pos) (s : Star) (hK : 0 < s.K) (hP : 0 < s.P) (h0 : 0 ≤ s.e) (h1 : s.e < 1) : 0 < heavyCoef c s := by
  have hG := hc.G
  have he : 0 < 1 - s.e ^ 2 := by nlinarith
  have h2 : 0 < 2 * π * c.G / toSeconds s.P := by unfold toSeconds; have := pi_pos; positivity
  unfold heavyCoef
  have := Real.rpow_pos_of_pos h2 (-1 / 3)
  have := Real.sqrt_pos.2 he
  positivity

theorem cube_rpow {a : ℝ} (h : 0 ≤ a) : (a ^ (2 / 3 : ℝ)) ^ 3 = a ^ 2 := by
  rw [← Real.rpow_natCast, ← Real.rpow_mul h, show ((2 / 3 : ℝ) * ((3 : ℕ) : ℝ)) = ((2 : ℕ) : ℝ) by norm_num, Real.rpow_natCast]

theorem heavy_pos (c : Consts) (s : Star) (ha : 0 < heavyCoef c s) (hM : 0 < s.M * c.Msun) (x : ℝ) (hx : heavyFunc c s x = some 0) : 0 < x ∧
    x = heavyCoef c s * (s.M * c.Msun + x) ^ (2 / 3 : ℝ) := by
  unfold heavyFunc at hx
  by_cases hn : s.M * c.Msun + x < 0
  · rw [if_pos hn] at hx; cases hx
  · rw [if_neg hn] at hx
    have hx' : x - heavyCoef c s * (s.M * c.Msun + x) ^ (2 / 3 : ℝ) = 0 := by simpa using hx
    push Not at hn
    have h2 : x = heavyCoef c s * (s.M * c.Msun + x) ^ (2 / 3 : ℝ) := by linarith
    refine ⟨?_, h2⟩
    have h3 : 0 ≤ x := by rw [h2]; exact mul_nonneg ha.le (Real.rpow_nonneg hn _)
    rcases h3.lt_or_eq with h | h
    · exact h
    · exfalso
      rw [← h, add_zero] at h2
      have := mul_pos ha (Real.rpow_pos_of_pos hM (2 / 3))
      linarith

theorem heavy_twoBody (c : Consts) (hc : c.Pos) (s : Star) (hK : 0 < s.K) (hP : 0 < s.P) (hM : 0 < s.M) (h0 : 0 ≤ s.e) (h1 : s.e < 1) (x : ℝ) :
    heavyFunc c s x = some 0 ↔ TwoBody c s x := by
  have ha := coef_pos c hc s hK hP h0 h1
  have hMs : 0 < s.M * c.Msun := mul_pos hM hc.Msun
  have h2 : 0 < 2 * π * c.G / toSeconds s.P := by unfold toSeconds; have := pi_pos; have := hc.G; positivity
  have hinv : (2 * π * c.G / toSeconds s.P) ^ (-1 / 3 : ℝ) * (2 * π * c.G / toSeconds s.P) ^ (1 / 3 : ℝ) = 1 := by
    rw [← Real.rpow_add h2, show (-1 / 3 + 1 / 3 : ℝ) = 0 by norm_num, Real.rpow_zero]
  have hb := Real.rpow_pos_of_pos h2 (1 / 3)
  set b := (2 * π * c.G / toSeconds s.P) ^ (1 / 3 : ℝ) with hbdef
  constructor
  · intro hx
    obtain ⟨hpos, he⟩ := heavy_pos c s ha hMs x hx
    refine ⟨hpos, ?_⟩
    have : b * x = b * (heavyCoef c s * (s.M * c.Msun + x) ^ (2 / 3 : ℝ)) := by rw [← he]
    rw [this]
    unfold heavyCoef
    linear_combination (-(s.K * √(1 - s.e ^ 2) * (s.M * c.Msun + x) ^ (2 / 3 : ℝ))) * hinv
  · rintro ⟨hpos, he⟩
    unfold heavyFunc
    rw [if_neg (by linarith)]
    congr 1
    unfold heavyCoef
    rw [show s.K * (2 * π * c.G / toSeconds s.P) ^ (-1 / 3 : ℝ) * √(1 - s.e ^ 2) * (s.M * c.Msun + x) ^ (2 / 3 : ℝ) =
      (2 * π * c.G / toSeconds s.P) ^ (-1 / 3 : ℝ) * (s.K * √(1 - s.e ^ 2) * (s.M * c.Msun + x) ^ (2 / 3 : ℝ)) by ring, he, ← mul_assoc, hinv]
    ring

/-- The two-body relation determines the mass: there is exactly one. -/
theorem C57_unique (c : Consts) (hc : c.Pos) (s : Star) (hK : 0 < s.K) (hP : 0 < s.P) (hM : 0 < s.M) (h0 : 0 ≤ s.e) (h1 : s.e < 1) : ∃! x, TwoBody c s x := by
  have ha := coef_pos c hc s hK hP h0 h1
  have hMs : 0 < s.M * c.Msun := mul_pos hM hc.Msun
  have key : ∀ x, TwoBody c s x ↔ 0 < x ∧ x ^ 3 = heavyCoef c s ^ 3 * (s.M * c.Msun + x) ^ 2 := by
    intro x
    rw [← heavy_twoBody c hc s hK hP hM h0 h1]
    constructor
    · intro hx
      obtain ⟨hp, he⟩ := heavy_pos c s ha hMs x hx
      refine ⟨hp, ?_⟩
      have : x ^ 3 = (heavyCoef c s * (s.M * c.Msun + x) ^ (2 / 3 : ℝ)) ^ 3 := by rw [← he]
      rw [this, mul_pow, cube_rpow (by linarith)]
    · rintro ⟨hp, he⟩
      unfold heavyFunc
      rw [if_neg (by linarith)]
      congr 1
      have h3 : x ^ 3 = (heavyCoef c s * (s.M * c.Msun + x) ^ (2 / 3 : ℝ)) ^ 3 := by rw [mul_pow, cube_rpow (by linarith), he]
      have h4 : 0 ≤ heavyCoef c s * (s.M * c.Msun + x) ^ (2 / 3 : ℝ) := mul_nonneg ha.le (Real.rpow_nonneg (by linarith) _)
      have := (pow_left_inj₀ hp.le h4 (by norm_num : (3 : ℕ) ≠ 0)).1 h3
      linarith
  set a := heavyCoef c s with had
  set M := s.M * c.Msun with hMd
  have hex : ∃ x, 0 < x ∧ x ^ 3 = a ^ 3 * (M + x) ^ 2 := by
    have hcont : Continuous fun x : ℝ => x ^ 3 - a ^ 3 * (M + x) ^ 2 := by fun_prop
    have ha3 : 0 < a ^ 3 := by positivity
    have hlo : (fun x : ℝ => x ^ 3 - a ^ 3 * (M + x) ^ 2) 0 ≤ 0 := by
      simp only; have : 0 < a ^ 3 * (M + 0) ^ 2 := by positivity
      nlinarith
    have hhi : 0 ≤ (fun x : ℝ => x ^ 3 - a ^ 3 * (M + x) ^ 2) (M + 4 * a ^ 3) := by
      simp only
      have h1 : M + (M + 4 * a ^ 3) ≤ 2 * (M + 4 * a ^ 3) := by linarith
      have h2 : (M + (M + 4 * a ^ 3)) ^ 2 ≤ (2 * (M + 4 * a ^ 3)) ^ 2 := by
        apply pow_le_pow_left₀ (by positivity) h1
      have h3 : a ^ 3 * (2 * (M + 4 * a ^ 3)) ^ 2 ≤ (M + 4 * a ^ 3) ^ 3 := by
        have : 0 ≤ (M + 4 * a ^ 3) ^ 2 * M := by positivity
        nlinarith
      nlinarith [mul_le_mul_of_nonneg_left h2 ha3.le]
    obtain ⟨x, hx1, hx2⟩ := intermediate_value_Icc (by positivity : (0 : ℝ) ≤ M + 4 * a ^ 3) hcont.continuousOn ⟨hlo, hhi⟩
    have hx3 : x ^ 3 = a ^ 3 * (M + x) ^ 2 := by simp only at hx2; linarith
    refine ⟨x, ?_, hx3⟩
    rcases hx1.1.lt_or_eq with h | h
    · exact h
    · exfalso
      rw [← h] at hx3
      have : 0 < a ^ 3 * (M + 0) ^ 2 := by positivity
      nlinarith
  have hmono : ∀ x y, 0 < x → x < y → x ^ 3 = a ^ 3 * (M + x) ^ 2 → y ^ 3 = a ^ 3 * (M + y) ^ 2 → False := by
    intro x y hx hxy h1 h2
    have hy : 0 < y := by linarith
    have e1 : x ^ 3 * (M + y) ^ 2 = y ^ 3 * (M + x) ^ 2 := by rw [h1, h2]; ring
    have h3 : x * (M + y) < y * (M + x) := by nlinarith
    have h4 : (x * (M + y)) ^ 2 < (y * (M + x)) ^ 2 := pow_lt_pow_left₀ h3 (by positivity) (by norm_num)
    have h5 : x * (x * (M + y)) ^ 2 < y * (y * (M + x)) ^ 2 := by
      have : 0 ≤ (x * (M + y)) ^ 2 := by positivity
      nlinarith
    nlinarith
  obtain ⟨x, hx1, hx2⟩ := hex
  refine ⟨x, (key x).2 ⟨hx1, hx2⟩, ?_⟩
  intro y hy
  obtain ⟨hy1, hy2⟩ := (key y).1 hy
  rcases lt_trichotomy x y with h | h | h
  · exact (hmono x y hx1 h hx2 hy2).elim
  · exact h.symm
  · exact (hmono y x hy1 h hy2 hx2).elim

/-- C57, heavy companions: if some element of the list is heavier than a tenth of its star by the first estimate, and the root finder returns roots, then for every element `Msini`
returns the one mass that satisfies the exact two-body relation, in the requested unit. -/
theorem C57_heavy (root : (ℝ → Option ℝ) → ℝ → ℝ) (c : Consts) (hc : c.Pos) (units : MassUnits) (hu : units ≠ .other) (rows : List Star)
    (hs : ∀ s ∈ rows, 0 < s.K ∧ 0 < s.P ∧ 0 < s.M ∧ 0 ≤ s.e ∧ s.e < 1) (hh : ∃ s ∈ rows, lightMsini c s * c.Mjup > s.M * c.Msun / 10)
    (hroot : ∀ s ∈ rows, heavyFunc c s (root (heavyFunc c s) c.Mjup) = some 0) :
    ∃ ms, msini root c rows units = .ok ms ∧ List.Forall₂ (fun s m => TwoBody c s (m * (unitMass c units * c.Mjup))) rows ms := by
  have hMs := hc.Msun
  have hMj := hc.Mjup
  have hMe := hc.Mearth
  have hany : rows.any (isHeavy c) = true := by
    rw [List.any_eq_true]
    obtain ⟨s, h1, h2⟩ := hh
    refine ⟨s, h1, ?_⟩
    have hM := (hs s h1).2.2.1
    simp only [isHeavy, decide_eq_true_eq]
    rw [mul_div_assoc s.M, div_self (ne_of_gt hMs), mul_one, gt_iff_lt, lt_div_iff₀ hM, lt_div_iff₀ hMs]
    linarith
  have hall : List.Forall₂ (fun s m => TwoBody c s (m * c.Mjup)) rows (rows.map (fun s => root (heavyFunc c s) c.Mjup / c.Mjup)) := by
    clear hany hh
    induction rows with
    | nil => exact .nil
    | cons s rows ih =>
      refine .cons ?_ (ih (fun s h => hs s (List.mem_cons_of_mem _ h)) (fun s h => hroot s (List.mem_cons_of_mem _ h)))
      obtain ⟨h1, h2, h3, h4, h5⟩ := hs s (by simp)
      rw [div_mul_cancel₀ _ (ne_of_gt hMj)]
      exact (heavy_twoBody c hc s h1 h2 h3 h4 h5 _).1 (hroot s (by simp))
  unfold msini
  simp only [hany, if_true]
  cases units with
  | other => exact absurd rfl hu
  | jupiter => exact ⟨_, rfl, by simpa [unitMass] using hall⟩
  | earth =>
    refine ⟨_, rfl, ?_⟩
    rw [List.forall₂_map_right_iff]
    refine hall.imp ?_
    intro s m h
    have : m * c.Mjup / c.Mearth * (unitMass c .earth * c.Mjup) = m * c.Mjup := by
      simp only [unitMass]; field_simp
    rw [this]; exact h

/-- Non-vacuity of `C57_heavy`: a semi-amplitude of 30 km/s, and a solver that returns the root. -/
example : ∃ (root : (ℝ → Option ℝ) → ℝ → ℝ) (rows : List Star), (∀ s ∈ rows, 0 < s.K ∧ 0 < s.P ∧ 0 < s.M ∧ 0 ≤ s.e ∧ s.e < 1) ∧
    (∃ s ∈ rows, lightMsini astropy s * astropy.Mjup > s.M * astropy.Msun / 10) ∧ ∀ s ∈ rows, heavyFunc astropy s (root (heavyFunc astropy s) astropy.Mjup) = some 0 := by
  classical
  refine ⟨fun f _ => if h : ∃ x, f x = some 0 then h.choose else 0, [⟨30000, 365.25, 1, 0⟩], ?_, ?_, ?_⟩
  · intro s h; simp only [List.mem_cons, List.not_mem_nil, or_false] at h; subst h; norm_num
  · refine ⟨_, List.mem_cons_self, ?_⟩
    unfold lightMsini toYears K0
    norm_num [astropy]
  · intro s h
    simp only [List.mem_cons, List.not_mem_nil, or_false] at h
    subst h
    have hex : ∃ x, heavyFunc astropy ⟨30000, 365.25, 1, 0⟩ x = some 0 := by
      obtain ⟨x, hx, _⟩ := C57_unique astropy astropy_pos ⟨30000, 365.25, 1, 0⟩ (by norm_num) (by norm_num) (by norm_num) (by norm_num) (by norm_num)
      exact ⟨x, (heavy_twoBody astropy astropy_pos _ (by norm_num) (by norm_num) (by norm_num) (by norm_num) (by norm_num) x).2 hx⟩
    simp only
    rw [dif_pos hex]
    exact hex.choose_spec

/-- C57: any other unit is rejected, by both functions. -/
theorem C57_units (root : (ℝ → Option ℝ) → ℝ → ℝ) (c : Consts) (rows : List Star) (m P M e : ℝ) :
    msini root c rows .other = .error .exception ∧ semiAmplitude c m P M e .other = .error .exception := ⟨rfl, rfl⟩

/-! ## C58 -/

/-- C58: `semi_major_axis` satisfies Kepler's third law `4 π² a³ = G M P²` (in SI units). -/
theorem C58_law (c : Consts) (hc : c.Pos) (P M : ℝ) (hP : 0 < P) (hM : 0 < M) :
    0 < semiMajorAxis c P M ∧ 4 * π ^ 2 * (semiMajorAxis c P M * c.au) ^ 3 = c.G * (M * c.Msun) * (P * 86400) ^ 2 := by
  have hpi := pi_pos
  have h1 := hc.G
  have h2 := hc.Msun
  have h3 := hc.au
  have hb : 0 < toSeconds P ^ 2 * c.G * (M * c.Msun) / (4 * π ^ 2) := by unfold toSeconds; positivity
  have hc3 : ((toSeconds P ^ 2 * c.G * (M * c.Msun) / (4 * π ^ 2)) ^ (1 / 3 : ℝ)) ^ 3 = toSeconds P ^ 2 * c.G * (M * c.Msun) / (4 * π ^ 2) := by
    rw [← Real.rpow_natCast, ← Real.rpow_mul hb.le]; norm_num
  constructor
  · unfold semiMajorAxis; exact div_pos (Real.rpow_pos_of_pos hb _) h3
  · unfold semiMajorAxis
    rw [div_mul_cancel₀ _ (ne_of_gt h3), hc3]
    unfold toSeconds
    field_simp

/-- C58: hence it scales as `P^(2/3) M^(1/3)`. -/
theorem C58_scaling (c : Consts) (hc : c.Pos) (P M x y : ℝ) (hP : 0 < P) (hM : 0 < M) (hx : 0 < x) (hy : 0 < y) :
    semiMajorAxis c (x * P) (y * M) = x ^ (2 / 3 : ℝ) * y ^ (1 / 3 : ℝ) * semiMajorAxis c P M := by
  have h1 := C58_law c hc P M hP hM
  have h2 := C58_law c hc (x * P) (y * M) (by positivity) (by positivity)
  have hau := hc.au
  have hpi := pi_pos
  have hy3 : (y ^ (1 / 3 : ℝ)) ^ 3 = y := by rw [← Real.rpow_natCast, ← Real.rpow_mul hy.le]; norm_num
  have hx3 := cube_rpow hx.le
  have ha := Real.rpow_pos_of_pos hx (2 / 3)
  have hb := Real.rpow_pos_of_pos hy (1 / 3)
  rw [← pow_left_inj₀ h2.1.le (mul_nonneg (mul_nonneg ha.le hb.le) h1.1.le) (by norm_num : (3 : ℕ) ≠ 0)]
  rw [mul_pow, mul_pow, hx3, hy3]
  have hpos : 0 < 4 * π ^ 2 * c.au ^ 3 := by positivity
  apply mul_left_cancel₀ (ne_of_gt hpos)
  have e1 := h1.2
  have e2 := h2.2
  linear_combination e2 - x ^ 2 * y * e1

/-- C58: it increases with the period and with the mass. -/
theorem C58_monotone (c : Consts) (hc : c.Pos) (P P' M M' : ℝ) (hP : 0 < P) (hM : 0 < M) (h1 : P ≤ P') (h2 : M ≤ M') (h : P < P' ∨ M < M') :
    semiMajorAxis c P M < semiMajorAxis c P' M' := by
  have hP' : 0 < P' := by linarith
  have hM' : 0 < M' := by linarith
  have a1 := C58_law c hc P M hP hM
  have a2 := C58_law c hc P' M' hP' hM'
  have hpi := pi_pos
  have hG := hc.G
  have hMs := hc.Msun
  have hau := hc.au
  have hlt : c.G * (M * c.Msun) * (P * 86400) ^ 2 < c.G * (M' * c.Msun) * (P' * 86400) ^ 2 := by
    have : M * P ^ 2 < M' * P' ^ 2 := by
      rcases h with h | h
      · have : P ^ 2 < P' ^ 2 := pow_lt_pow_left₀ h hP.le (by norm_num)
        nlinarith [mul_pos hM hM]
      · have : P ^ 2 ≤ P' ^ 2 := pow_le_pow_left₀ hP.le h1 2
        have : 0 < P ^ 2 := by positivity
        nlinarith
    have hk : 0 < c.G * c.Msun * 86400 ^ 2 := by positivity
    nlinarith
  rw [← a1.2, ← a2.2] at hlt
  have h3 : (semiMajorAxis c P M * c.au) ^ 3 < (semiMajorAxis c P' M' * c.au) ^ 3 := by
    have : 0 < 4 * π ^ 2 := by positivity
    exact lt_of_mul_lt_mul_left hlt this.le
  have h4 := lt_of_pow_lt_pow_left₀ 3 (by have := a2.1; positivity) h3
  exact lt_of_mul_lt_mul_right h4 hau.le

/-- Non-vacuity of C58. -/
example : astropy.Pos ∧ (0 : ℝ) < 365.25 ∧ (365.25 : ℝ) ≤ 400 ∧ ((365.25 : ℝ) < 400 ∨ (1 : ℝ) < 1) := ⟨astropy_pos, by norm_num, by norm_num, .inl (by norm_num)⟩

/-! ## C94 -/

/-- C94: the density times the volume of the sphere is the mass (g and cm), in both units; other units are rejected. -/
theorem C94_density (c : Consts) (hc : c.Pos) (m r : ℝ) (hr : 0 < r) :
    (∃ ρ, density c m r .earth = .ok ρ ∧ ρ * (4 / 3 * π * (r * c.Rearth * 100) ^ 3) = m * c.Mearth * 1000) ∧
    (∃ ρ, density c m r .jupiter = .ok ρ ∧ ρ * (4 / 3 * π * (r * c.Rjup * 100) ^ 3) = m * c.Mjup * 1000) ∧ density c m r .other = .error .exception := by
  have hpi := pi_pos
  have h1 := hc.Rearth
  have h2 := hc.Rjup
  refine ⟨⟨_, rfl, ?_⟩, ⟨_, rfl, ?_⟩, rfl⟩ <;> norm_num <;> field_simp <;> ring

end Radvel
