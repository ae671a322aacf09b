import Verif.Props.KeplerEnd
import Verif.Props.RVModel

/-!
# C168: model velocities exist and are accurate

C24 bounds the error of a velocity that `rv_drive` returns; with C167 it always returns one.
-/

namespace Radvel
open Real

/-- The bound of C24 at the largest eccentricity that is not replaced. -/
theorem error_le (k e : ℝ) (he1 : e ≤ 0.99) : |k| * √((1 + e) / (1 - e)) * (1e-12 / (1 - e)) ≤ 1.42e-9 * |k| := by
  norm_num at he1
  have h0 : 0 < 1 - e := by linarith
  have h1 : √((1 + e) / (1 - e)) ≤ 14.2 := by
    rw [Real.sqrt_le_left (by norm_num), div_le_iff₀ h0]
    norm_num
    linarith
  have h2 : (1e-12 : ℝ) / (1 - e) ≤ 1e-10 := by
    rw [div_le_iff₀ h0]
    norm_num
    linarith
  have h3 : √((1 + e) / (1 - e)) * (1e-12 / (1 - e)) ≤ 14.2 * 1e-10 := mul_le_mul h1 h2 (by positivity) (by norm_num)
  rw [mul_assoc, mul_comm]
  refine (mul_le_mul_of_nonneg_right h3 (abs_nonneg k)).trans ?_
  norm_num

/-- C168 (NumPy): for every time, positive period, time of periastron, eccentricity from 0 to 0.99, argument and amplitude, `rv_drive` returns a number that differs from the velocity of the exact orbit by at most
`1.42e-9 k`. (`hpole`: the formula of the code has a tangent; it is undefined at anomalies of exactly half a turn.) -/
theorem C168_numpy (passes : Nat) (hp : 27 ≤ passes) (t per tp e om k E : ℝ) (hper : 0 < per) (he : 0 ≤ e) (he1 : e ≤ 0.99) (hE : IsEccAnomaly e (meanAnomaly t tp per) E)
    (hpole : ∀ E', npSolve passes (meanAnomaly t tp per) e = some E' → cos (E' / 2) ≠ 0) :
    ∃ v, rvDrive (npSolve passes) rvNumpy t per tp e om k = some v ∧ |v - exactVel e om k E| ≤ 1.42e-9 * |k| := by
  obtain ⟨v, hv⟩ := C167_velocity_numpy t per tp e om k hper.ne' passes hp
  exact ⟨v, hv, (C24_rv_drive_numpy passes t per tp e om k v E hper he he1 hE hpole hv).trans (error_le k e he1)⟩

/-- C168 (C): the same for the C solver; it never ends the process. -/
theorem C168_c (t per tp e om k E : ℝ) (hper : 0 < per) (he : 0 ≤ e) (he1 : e ≤ 0.99) (hE : IsEccAnomaly e (meanAnomaly t tp per) E) (hpole : ∀ E', cSolve (meanAnomaly t tp per) e = some E' → cos (E' / 2) ≠ 0) :
    ∃ v, rvDrive cSolve rvC t per tp e om k = some v ∧ |v - exactVel e om k E| ≤ 1.42e-9 * |k| := by
  obtain ⟨v, hv⟩ := C167_velocity_c t per tp e om k hper.ne'
  exact ⟨v, hv, (C24_rv_drive_c t per tp e om k v E hper he he1 hE hpole hv).trans (error_le k e he1)⟩

/-- C168: with or without the C extension the velocities are the same to within `2.84e-9 k`. -/
theorem C168_agree (passes : Nat) (hp : 27 ≤ passes) (t per tp e om k : ℝ) (hper : 0 < per) (he : 0 ≤ e) (he1 : e ≤ 0.99) (hpole : ∀ E', npSolve passes (meanAnomaly t tp per) e = some E' → cos (E' / 2) ≠ 0)
    (hpole' : ∀ E', cSolve (meanAnomaly t tp per) e = some E' → cos (E' / 2) ≠ 0) :
    ∃ v v', rvDrive (npSolve passes) rvNumpy t per tp e om k = some v ∧ rvDrive cSolve rvC t per tp e om k = some v' ∧ |v - v'| ≤ 2.84e-9 * |k| := by
  obtain ⟨E, hE⟩ := ecc_exists e (meanAnomaly t tp per) he (by norm_num at he1 ⊢; linarith)
  obtain ⟨v, h1, h2⟩ := C168_numpy passes hp t per tp e om k E hper he he1 hE hpole
  obtain ⟨v', h3, h4⟩ := C168_c t per tp e om k E hper he he1 hE hpole'
  refine ⟨v, v', h1, h3, ?_⟩
  have := abs_sub_le v (exactVel e om k E) v'
  rw [abs_sub_comm (exactVel e om k E) v'] at this
  norm_num at h2 h4 ⊢
  linarith

/-- A solver and a formula of the code: NumPy or C. -/
def CodeSolver (solve : ℝ → ℝ → Option ℝ) (formula : ℝ → ℝ → ℝ → ℝ → ℝ) : Prop := (∃ n, 27 ≤ n ∧ solve = npSolve n ∧ formula = rvNumpy) ∨ (solve = cSolve ∧ formula = rvC)

/-- C168 for the whole model: for every set of parameters, any number of planets, with positive periods and eccentricities from 0 to 0.99, `model(t)` is a number that differs from the sum of the exact orbits and the
trend by at most `1.42e-9` times the sum of the amplitudes. -/
theorem C168_model (solve : ℝ → ℝ → Option ℝ) (formula : ℝ → ℝ → ℝ → ℝ → ℝ) (hc : CodeSolver solve formula) (p : Params ℝ) (h : UserParams p) (orb : Nat → Synth) (ho : Elements p orb) (tb t : ℝ)
    (hper : ∀ m, IsPlanet p m → 0 < (orb m).per ∧ 0 ≤ (orb m).e ∧ (orb m).e ≤ 0.99) (E : Nat → ℝ) (hE : ∀ m, IsPlanet p m → IsEccAnomaly (orb m).e (meanAnomaly t (orb m).tp (orb m).per) (E m))
    (hpole : ∀ m, IsPlanet p m → ∀ E', solve (meanAnomaly t (orb m).tp (orb m).per) (orb m).e = some E' → cos (E' / 2) ≠ 0) :
    ∃ u, curve (driveOf solve formula) tb p t = .ok (some u) ∧
      |u - (∑ m ∈ Finset.Icc 1 p.numPlanets, exactVel (orb m).e (orb m).w (orb m).k (E m) + trendOf p .dvdt * (t - tb) + trendOf p .curv * (t - tb) ^ 2)| ≤ 1.42e-9 * ∑ m ∈ Finset.Icc 1 p.numPlanets, |(orb m).k| := by
  have one : ∀ m, IsPlanet p m → ∃ v, driveOf solve formula t (orb m) = some v ∧ |v - exactVel (orb m).e (orb m).w (orb m).k (E m)| ≤ 1.42e-9 * |(orb m).k| := by
    intro m hm
    obtain ⟨h1, h2, h3⟩ := hper m hm
    rcases hc with ⟨n, hn, rfl, rfl⟩ | ⟨rfl, rfl⟩
    · exact C168_numpy n hn _ _ _ _ _ _ _ h1 h2 h3 (hE m hm) (hpole m hm)
    · exact C168_c _ _ _ _ _ _ _ h1 h2 h3 (hE m hm) (hpole m hm)
  classical
  choose! v hv hb using one
  refine ⟨_, C25_sum p h orb ho _ tb t v hv, ?_⟩
  have hmem : ∀ m ∈ Finset.Icc 1 p.numPlanets, IsPlanet p m := by intro m hm; simpa [IsPlanet] using hm
  have e1 : ∑ m ∈ Finset.Icc 1 p.numPlanets, v m + trendOf p .dvdt * (t - tb) + trendOf p .curv * (t - tb) ^ 2 -
      (∑ m ∈ Finset.Icc 1 p.numPlanets, exactVel (orb m).e (orb m).w (orb m).k (E m) + trendOf p .dvdt * (t - tb) + trendOf p .curv * (t - tb) ^ 2) =
      ∑ m ∈ Finset.Icc 1 p.numPlanets, (v m - exactVel (orb m).e (orb m).w (orb m).k (E m)) := by
    rw [Finset.sum_sub_distrib]; ring
  rw [e1, Finset.mul_sum]
  exact (Finset.abs_sum_le_sum_abs _ _).trans (Finset.sum_le_sum fun m hm => hb m (hmem m hm))

theorem solve_zero (e : ℝ) (n : Nat) : npSolve n 0 e = some 0 ∧ cSolve 0 e = some 0 := by
  have h0 : ¬ ((1 : ℝ) ≤ 0) := by norm_num
  have hu : unconverged 0 e (some 0) = false := by simp [unconverged, keplerFi, conv]; norm_num
  constructor
  · have hn : npInit [(0, e)] = [{ M := 0, e := e, E := some 0 }] := by simp [npInit, npGuess]
    have hact : ({ M := 0, e := e, E := some 0 } : KElem).active = false := hu
    simp only [npSolve, npKepler, hn]
    cases n <;> simp [npLoop, hact]
  · simp [cSolve, cKepler, cLoop, cGuess, cSign, h0, hu]

/-- The hypotheses of `C168_numpy`, `C168_c` and `C168_agree` hold at periastron for `e = 0.5`. -/
example : 27 ≤ 27 ∧ (0 : ℝ) < 5 ∧ (0.5 : ℝ) ≤ 0.99 ∧ IsEccAnomaly 0.5 (meanAnomaly 2 2 5) 0 ∧ (∀ E', npSolve 27 (meanAnomaly 2 2 5) 0.5 = some E' → cos (E' / 2) ≠ 0) ∧
    ∀ E', cSolve (meanAnomaly 2 2 5) 0.5 = some E' → cos (E' / 2) ≠ 0 := by
  have hm : meanAnomaly 2 2 5 = 0 := by simp [meanAnomaly]
  rw [hm]
  refine ⟨le_refl _, by norm_num, by norm_num, by simp [IsEccAnomaly], ?_, ?_⟩
  · intro E' h
    rw [(solve_zero _ _).1] at h
    cases h
    simp
  · intro E' h
    rw [(solve_zero _ 0).2] at h
    cases h
    simp

/-- The hypotheses of `C168_model` hold for two planets of period 1/2 and eccentricity 1/2, with either solver. -/
example : ∃ (p : Params ℝ) (orb : Nat → Synth), p.numPlanets = 2 ∧ UserParams p ∧ Elements p orb ∧ CodeSolver cSolve rvC ∧ CodeSolver (npSolve 27) rvNumpy ∧
    (∀ m, IsPlanet p m → 0 < (orb m).per ∧ 0 < (orb m).e ∧ (orb m).e ≤ 0.99 ∧ IsEccAnomaly (orb m).e (meanAnomaly (1 / 2) (orb m).tp (orb m).per) 0) ∧
    ∀ m, IsPlanet p m → ∀ E', cSolve (meanAnomaly (1 / 2) (orb m).tp (orb m).per) (orb m).e = some E' → cos (E' / 2) ≠ 0 := by
  have hu : UserParams (Params.init (1 / 2 : ℝ) 2 .perTpEWK none) := .new _ _ _ _ (by decide)
  have key : ∀ m, IsPlanet (Params.init (1 / 2 : ℝ) 2 .perTpEWK none) m → ∀ s, s = synthOfVals (Params.init (1 / 2 : ℝ) 2 .perTpEWK none).basis (valsOf (Params.init (1 / 2 : ℝ) 2 .perTpEWK none) m) →
      s.per = 1 / 2 ∧ s.e = 1 / 2 ∧ s.tp = 1 / 2 := by
    rintro m ⟨h1, h2⟩ s rfl
    have h2 : m ≤ 2 := h2
    have : m = 1 ∨ m = 2 := by omega
    rcases this with rfl | rfl <;> exact ⟨rfl, rfl, rfl⟩
  refine ⟨_, _, rfl, hu, elements_exist _ hu.good.complete, .inr ⟨rfl, rfl⟩, .inl ⟨27, le_refl _, rfl, rfl⟩, ?_, ?_⟩
  · intro m hm
    obtain ⟨h1, h2, h3⟩ := key m hm _ rfl
    simp only [h1, h2, h3, meanAnomaly, IsEccAnomaly]
    norm_num
  · intro m hm E' h
    obtain ⟨h1, h2, h3⟩ := key m hm _ rfl
    simp only [h1, h2, h3, meanAnomaly] at h
    norm_num [(solve_zero _ 0).2] at h
    subst h
    simp

end Radvel
