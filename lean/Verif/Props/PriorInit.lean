import Verif.Model.PriorInit
import Verif.Props.Prior
import Verif.Props.Constraints

/-!
# C179: which priors can be constructed, and which of those are priors
-/

namespace Radvel
open Real MeasureTheory Set

/-- Arguments that describe a distribution: a positive width, or finite bounds in order, for the two logarithmic priors above 0 or above the knee. -/
def PriorArgs.Legal : PriorArgs → Prop
  | .gaussian _ sigma => 0 < sigma
  | .hardBounds lo hi => ∃ a b, lo = .fin a ∧ hi = .fin b ∧ a < b
  | .jeffreys a b => 0 < a ∧ a < b
  | .modJeffreys a b c => c < a ∧ a < b

/-- An object that can be used as a prior for MCMC and for nested sampling: its exponential is a probability density, and `transform` gives numbers in the support of that density. -/
def PriorObj.Usable (o : PriorObj) : Prop := ∃ f : ℝ → ℝ, IsLogDensity o.call f ∧ ∀ u, 0 < u → u < 1 → ∃ x, o.transform u = .ok (.fin x) ∧ 0 < f x

/-- In words: the density of this object is 0 or undefined at every number. -/
def PriorObj.Nowhere (o : PriorObj) : Prop := ∀ x y, o.call x ≠ .fin y

theorem flInv_log {r : ℝ} (h0 : 0 < r) (h1 : r ≠ 1) : flInv (Fl.log r) = .fin (1 / log r) := by
  have : log r ≠ 0 := by
    rw [Real.log_ne_zero]
    exact ⟨h0.ne', h1, by linarith⟩
  rw [Fl.log_of_pos h0]
  simp [flInv, this]

/-- With legal bounds the normalisation is the number used in `Model/Prior`. -/
theorem jeffreysObj_call {a b : ℝ} (ha : 0 < a) (h : a < b) : (jeffreysObj a b (flInv (Fl.log (b / a)))).call = jeffreysLogpdf a b := by
  funext x
  rw [flInv_log (div_pos (by linarith) ha) (by rw [Ne, div_eq_one_iff_eq ha.ne']; exact h.ne')]
  rfl

theorem modJeffreysObj_call {a b c : ℝ} (hc : c < a) (h : a < b) : (modJeffreysObj a b c (flInv (Fl.log ((b - c) / (a - c))))).call = modJeffreysLogpdf a b c := by
  funext x
  have h1 : 0 < a - c := by linarith
  rw [flInv_log (div_pos (by linarith) h1) (by rw [Ne, div_eq_one_iff_eq h1.ne']; intro h2; linarith)]
  rfl

/-- C179 in part: arguments that describe a distribution are accepted, and the object is a prior for MCMC and for nested sampling. For the Gaussian `transform` is `mu + sigma` times the standard quantile. -/
theorem C179_legal_partial (ppf : ℝ → ℝ) (args : PriorArgs) (h : args.Legal) : ∃ o, priorNew ppf args = .ok o ∧ o.Usable := by
  cases args with
  | gaussian mu sigma =>
    refine ⟨_, rfl, _, C41_gaussian mu sigma (ne_of_gt h), fun u _ _ => ⟨mu + sigma * ppf u, ?_, ?_⟩⟩
    · show Except.ok (normPpf ppf mu sigma u) = _
      rw [normPpf, if_pos (show 0 < sigma from h)]
    · have h1 : 0 < √(2 * π * sigma ^ 2) := by
        have : 0 < sigma := h
        have := Real.pi_pos
        positivity
      have := Real.exp_pos (-(mu + sigma * ppf u - mu) ^ 2 / (2 * sigma ^ 2))
      positivity
  | hardBounds lo hi =>
    obtain ⟨a, b, rfl, rfl, hab⟩ := h
    obtain ⟨T, h1, h2, -⟩ := C42_hardBounds ppf .dvdt a b hab
    refine ⟨_, rfl, _, C41_hardBounds a b hab, fun u h3 h4 => ⟨a + u * (b - a), rfl, ?_⟩⟩
    have h5 : T u = a + u * (b - a) := by
      have := h1 u
      simp only [Prior.transform] at this
      injection this with this
      exact this.symm
    have h6 := h2 u h3 h4
    rw [h5] at h6
    rw [indicator_of_mem (show a + u * (b - a) ∈ Ioo a b from h6)]
    have : 0 < b - a := by linarith
    positivity
  | jeffreys a b =>
    obtain ⟨ha, hab⟩ := h
    obtain ⟨T, h1, h2, -⟩ := C42_jeffreys ppf .dvdt a b ha hab
    have hpos : 0 < b / a := div_pos (by linarith) ha
    have hl : 0 < log (b / a) := Real.log_pos (by rw [one_lt_div ha]; exact hab)
    refine ⟨jeffreysObj a b (flInv (Fl.log (b / a))), by simp only [priorNew, if_neg ha.ne'], _, by rw [jeffreysObj_call ha hab]; exact C41_jeffreys a b ha hab, fun u h3 h4 => ⟨a * exp (u * log (b / a)), ?_, ?_⟩⟩
    · simp only [jeffreysObj, Fl.log_of_pos hpos, flScale, mulExp]
    · have h5 : T u = a * exp (u * log (b / a)) := by
        have := h1 u
        simp only [Prior.transform] at this
        injection this with this
        exact this.symm
      have h6 := h2 u h3 h4
      rw [h5] at h6
      rw [indicator_of_mem (show a * exp (u * log (b / a)) ∈ Icc a b from h6)]
      have : 0 < a * exp (u * log (b / a)) := mul_pos ha (exp_pos _)
      positivity
  | modJeffreys a b c =>
    obtain ⟨hc, hab⟩ := h
    obtain ⟨T, h1, h2, -⟩ := C42_modJeffreys ppf .dvdt a b c hc hab
    have hac : 0 < a - c := by linarith
    have hpos : 0 < (b - c) / (a - c) := div_pos (by linarith) hac
    have hne : (b - c) / (a - c) ≠ 1 := by rw [Ne, div_eq_one_iff_eq hac.ne']; intro h2; linarith
    have hl : 0 < log ((b - c) / (a - c)) := Real.log_pos (by rw [one_lt_div hac]; linarith)
    refine ⟨modJeffreysObj a b c (flInv (Fl.log ((b - c) / (a - c)))), by simp only [priorNew, if_neg hac.ne', if_pos (show a > c from hc)], _, by rw [modJeffreysObj_call hc hab]; exact C41_modJeffreys a b c hc hab,
      fun u h3 h4 => ⟨c + (a - c) * exp (u / modJeffreysNorm a b c), ?_, ?_⟩⟩
    · have h5 : (1 / log ((b - c) / (a - c))) ≠ 0 := by positivity
      simp only [modJeffreysObj, flInv_log hpos hne, flDiv, if_neg h5, mulExp, flShift, Fl.fin_add_fin, modJeffreysNorm]
    · have h5 : T u = c + (a - c) * exp (u / modJeffreysNorm a b c) := by
        have := h1 u
        simp only [Prior.transform] at this
        injection this with this
        exact this.symm
      have h6 := h2 u h3 h4
      rw [h5] at h6
      rw [indicator_of_mem (show c + (a - c) * exp (u / modJeffreysNorm a b c) ∈ Icc a b from h6)]
      have h7 : 0 < c + (a - c) * exp (u / modJeffreysNorm a b c) - c := by
        rw [add_sub_cancel_left]; exact mul_pos hac (exp_pos _)
      positivity

/-- Non-vacuity: each class has legal arguments. -/
example : PriorArgs.Legal (.gaussian 5 0.1) ∧ PriorArgs.Legal (.hardBounds (.fin (-1)) (.fin 1)) ∧ PriorArgs.Legal (.jeffreys 0.1 100) ∧ PriorArgs.Legal (.modJeffreys 0 100 (-1)) :=
  ⟨by norm_num [PriorArgs.Legal], ⟨-1, 1, rfl, rfl, by norm_num⟩, by constructor <;> norm_num, by constructor <;> norm_num⟩

/-- C179: what is refused. A `Jeffreys` prior is refused (as a division by zero) only for a lower bound of 0, a `ModifiedJeffreys` prior only for a lower bound that is not above the knee; Gaussian and bounded
priors are never refused. -/
theorem C179_refused (ppf : ℝ → ℝ) : (∀ mu sigma, ∃ o, priorNew ppf (.gaussian mu sigma) = .ok o) ∧ (∀ a b, ∃ o, priorNew ppf (.hardBounds a b) = .ok o) ∧
    (∀ a b, (∃ e, priorNew ppf (.jeffreys a b) = .error e) ↔ a = 0) ∧ (∀ a b c, (∃ e, priorNew ppf (.modJeffreys a b c) = .error e) ↔ a ≤ c) ∧
    (∀ a b c, a < c → priorNew ppf (.modJeffreys a b c) = .error .assertionError) := by
  refine ⟨fun mu sigma => ⟨_, rfl⟩, fun a b => ⟨_, rfl⟩, fun a b => ?_, fun a b c => ?_, fun a b c h => ?_⟩
  · by_cases h : a = 0
    · simp [priorNew, h]
    · simp [priorNew, h]
  · by_cases h : a - c = 0
    · simp only [priorNew, if_pos h]
      constructor
      · intro _; linarith
      · intro _; exact ⟨_, rfl⟩
    · simp only [priorNew, if_neg h]
      by_cases h1 : a > c
      · simp only [if_pos h1]
        constructor
        · rintro ⟨e, he⟩; cases he
        · intro h2; linarith
      · simp only [if_neg h1]
        constructor
        · intro _; linarith
        · intro _; exact ⟨_, rfl⟩
  · simp only [priorNew, if_neg (show a - c ≠ 0 by intro h1; linarith), if_neg (show ¬ a > c by intro h1; linarith)]

theorem Fl.add_minus_log_neg (y : Fl) {x : ℝ} (h : x < 0) : y + (Fl.log x).minus = .nan := by
  have : Fl.log x = .nan := by simp [Fl.log, not_lt.mpr h.le, h.ne]
  rw [this]
  exact Fl.add_nan y

/-- C179 is false for `Jeffreys` (/repo/radvel/prior.py 328-340): every pair of bounds that is out of order, equal, or negative below is accepted. With a negative lower bound the prior is nan at every value
within its bounds, with equal bounds it is infinite at the only value within them, with bounds out of order no value is within them. -/
theorem C179_jeffreys_violated (ppf : ℝ → ℝ) (a b : ℝ) (h0 : a ≠ 0) (h : ¬ PriorArgs.Legal (.jeffreys a b)) : ∃ o, priorNew ppf (.jeffreys a b) = .ok o ∧ o.Nowhere ∧
    (a < 0 → ∀ x, a ≤ x → x ≤ b → o.call x = .nan) ∧ (0 < a → a = b → o.call a = .pos) ∧ (b < a → ∀ x, o.call x = .neg) := by
  have hne : a < 0 → ∀ x, a ≤ x → x ≤ b → (jeffreysObj a b (flInv (Fl.log (b / a)))).call x = .nan := by
    intro ha x h1 h2
    have : ¬ (x < a ∨ x > b) := by push Not; exact ⟨h1, h2⟩
    simp only [jeffreysObj, if_neg this]
    rcases lt_trichotomy b 0 with hb | hb | hb
    · exact Fl.add_minus_log_neg _ (lt_of_le_of_lt h2 hb)
    · subst hb
      have h3 : Fl.log ((0 : ℝ) / a) = .neg := by simp [Fl.log]
      have h4 : flLog (flInv (Fl.log ((0 : ℝ) / a))) = .neg := by rw [h3]; simp [flInv, flLog, Fl.log]
      rw [h4]
      rcases lt_or_eq_of_le h2 with h5 | rfl
      · exact Fl.add_minus_log_neg _ h5
      · simp only [Fl.log, lt_irrefl, if_false, if_true, Fl.minus]
        rfl
    · have h3 : b / a < 0 := div_neg_of_pos_of_neg hb ha
      have h4 : Fl.log (b / a) = .nan := by simp [Fl.log, not_lt.mpr h3.le, h3.ne]
      rw [h4]
      exact Fl.nan_add _
  have heq : 0 < a → a = b → (jeffreysObj a b (flInv (Fl.log (b / a)))).call a = .pos := by
    rintro ha rfl
    simp only [jeffreysObj, lt_irrefl, gt_iff_lt, or_self, if_false, div_self h0]
    have h1 : Fl.log (1 : ℝ) = .fin 0 := by rw [Fl.log_of_pos one_pos, Real.log_one]
    rw [h1, Fl.log_of_pos ha]
    simp only [flInv, if_true, flLog, Fl.minus]
    rfl
  have hgt : b < a → ∀ x, (jeffreysObj a b (flInv (Fl.log (b / a)))).call x = .neg := by
    intro hba x
    have : x < a ∨ x > b := by
      rcases lt_or_ge x a with h1 | h1
      · exact .inl h1
      · exact .inr (by linarith)
    simp only [jeffreysObj, if_pos this]
  refine ⟨_, by simp only [priorNew, if_neg h0], ?_, hne, heq, hgt⟩
  intro x y hxy
  by_cases hx : x < a ∨ x > b
  · simp only [jeffreysObj, if_pos hx] at hxy
    cases hxy
  · push Not at hx
    rcases lt_or_gt_of_ne h0 with ha | ha
    · rw [hne ha x hx.1 hx.2] at hxy; cases hxy
    · have hab : a = b := by
        have : ¬ a < b := fun h1 => h ⟨ha, h1⟩
        linarith [hx.1, hx.2]
      obtain rfl : x = a := by linarith [hx.1, hx.2]
      rw [heq ha hab] at hxy; cases hxy

/-- C179 is false for `ModifiedJeffreys` (/repo/radvel/prior.py 381-396): bounds out of order or equal are accepted. -/
theorem C179_modJeffreys_violated (ppf : ℝ → ℝ) (a b c : ℝ) (hc : c < a) (h : b ≤ a) : ∃ o, priorNew ppf (.modJeffreys a b c) = .ok o ∧ o.Nowhere ∧ (a = b → o.call a = .pos) ∧ (b < a → ∀ x, o.call x = .neg) := by
  have hac : 0 < a - c := by linarith
  have heq : a = b → (modJeffreysObj a b c (flInv (Fl.log ((b - c) / (a - c))))).call a = .pos := by
    rintro rfl
    simp only [modJeffreysObj, lt_irrefl, gt_iff_lt, or_self, if_false, div_self hac.ne']
    have h1 : Fl.log (1 : ℝ) = .fin 0 := by rw [Fl.log_of_pos one_pos, Real.log_one]
    rw [h1, Fl.log_of_pos hac]
    simp only [flInv, if_true, flLog, Fl.minus]
    rfl
  have hgt : b < a → ∀ x, (modJeffreysObj a b c (flInv (Fl.log ((b - c) / (a - c))))).call x = .neg := by
    intro hba x
    have : x > b ∨ x < a := by
      rcases lt_or_ge x a with h1 | h1
      · exact .inr h1
      · exact .inl (by linarith)
    simp only [modJeffreysObj, if_pos this]
  refine ⟨_, by simp only [priorNew, if_neg hac.ne', if_pos (show a > c from hc)], ?_, heq, hgt⟩
  intro x y hxy
  rcases lt_or_eq_of_le h with h1 | h1
  · rw [hgt h1 x] at hxy; cases hxy
  · by_cases hx : x > b ∨ x < a
    · simp only [modJeffreysObj, if_pos hx] at hxy
      cases hxy
    · push Not at hx
      obtain rfl : x = a := by linarith [hx.1, hx.2]
      rw [heq h1.symm] at hxy; cases hxy

/-- C179 is false for `HardBounds` (/repo/radvel/prior.py 206-231): bounds out of order or equal are accepted; then no value has a density, and `transform` still gives values. -/
theorem C179_hardBounds_violated (ppf : ℝ → ℝ) (a b : ℝ) (h : b ≤ a) : ∃ o, priorNew ppf (.hardBounds (.fin a) (.fin b)) = .ok o ∧ o.Nowhere ∧ (∀ x, o.call x = .neg) ∧ ∀ u, ∃ x, o.transform u = .ok (.fin x) := by
  have hall : ∀ x, hardBoundsLogpdf (.fin a) (.fin b) x = .neg := by
    intro x
    have : Fl.ge (.fin a) x ∨ Fl.le (.fin b) x := by
      rcases le_or_gt x a with h1 | h1
      · exact .inl h1
      · exact .inr (show b ≤ x by linarith)
    simp only [hardBoundsLogpdf, if_pos this]
  refine ⟨_, rfl, fun x y hxy => ?_, hall, fun u => ⟨_, rfl⟩⟩
  have h1 := (hall x).symm.trans hxy
  cases h1

/-- C179 is false for `Gaussian` (/repo/radvel/prior.py 34-44): any width is accepted. With width 0 the prior is nan everywhere. With a negative width the log density is that of the width without its sign, so that
MCMC runs as if nothing were wrong, while `transform` is nan everywhere, so that nested sampling draws nan. -/
theorem C179_gaussian_violated (ppf : ℝ → ℝ) (mu sigma : ℝ) (h : sigma ≤ 0) : ∃ o, priorNew ppf (.gaussian mu sigma) = .ok o ∧ (∀ u, o.transform u = .ok .nan) ∧ (sigma = 0 → ∀ x, o.call x = .nan) ∧
    (sigma < 0 → ∃ f, IsLogDensity o.call f ∧ ∃ o', priorNew ppf (.gaussian mu (-sigma)) = .ok o' ∧ o'.call = o.call) := by
  refine ⟨_, rfl, fun u => ?_, fun h0 x => ?_, fun hs => ⟨_, C41_gaussian mu sigma hs.ne, _, rfl, ?_⟩⟩
  · show Except.ok (normPpf ppf mu sigma u) = _
    rw [normPpf, if_neg (not_lt.mpr h)]
  · show gaussianLogpdf mu sigma x = _
    rw [gaussianLogpdf, if_pos h0]
  · funext x
    show gaussianLogpdf mu (-sigma) x = gaussianLogpdf mu sigma x
    have h1 : -sigma ≠ 0 := by intro h2; linarith
    simp only [gaussianLogpdf, if_neg h1, if_neg hs.ne, Fl.fin.injEq]
    have h2 : ((x - mu) / -sigma) ^ 2 = ((x - mu) / sigma) ^ 2 := by rw [div_neg, neg_sq]
    rw [h2, neg_sq]

theorem not_usable_of_nowhere {o : PriorObj} (h : o.Nowhere) : ¬ o.Usable := by
  rintro ⟨f, hf, hu⟩
  have hz : ∀ x, f x = 0 := by
    intro x
    have h1 := hf.exp_eq x
    cases hc : o.call x with
    | fin y => exact absurd hc (h x y)
    | pos => rw [hc] at h1; cases h1
    | neg => rw [hc] at h1; simp only [Fl.exp, Option.some.injEq] at h1; exact h1.symm
    | nan => rw [hc] at h1; cases h1
  obtain ⟨x, -, h2⟩ := hu (1 / 2) (by norm_num) (by norm_num)
  rw [hz x] at h2
  exact lt_irrefl _ h2

/-- C179, exactly: an accepted prior can be used if and only if its arguments describe a distribution. -/
theorem C179_exact (ppf : ℝ → ℝ) (args : PriorArgs) (o : PriorObj) (h : priorNew ppf args = .ok o) : o.Usable ↔ args.Legal := by
  constructor
  · intro hu
    by_contra hl
    cases args with
    | gaussian mu sigma =>
      obtain ⟨o', h1, h2, -⟩ := C179_gaussian_violated ppf mu sigma (not_lt.mp hl)
      rw [h] at h1; cases h1
      obtain ⟨f, -, h3⟩ := hu
      obtain ⟨x, h4, -⟩ := h3 (1 / 2) (by norm_num) (by norm_num)
      rw [h2] at h4; cases h4
    | hardBounds lo hi =>
      by_cases hfin : ∃ a b, lo = .fin a ∧ hi = .fin b
      · obtain ⟨a, b, rfl, rfl⟩ := hfin
        have hba : b ≤ a := by
          by_contra h1
          exact hl ⟨a, b, rfl, rfl, not_le.mp h1⟩
        obtain ⟨o', h1, h2, -⟩ := C179_hardBounds_violated ppf a b hba
        rw [h] at h1; cases h1
        exact not_usable_of_nowhere h2 hu
      · cases h
        obtain ⟨f, -, h3⟩ := hu
        obtain ⟨x, h4, -⟩ := h3 (1 / 2) (by norm_num) (by norm_num)
        cases lo <;> cases hi <;> first | exact hfin ⟨_, _, rfl, rfl⟩ | cases h4
    | jeffreys a b =>
      have h0 : a ≠ 0 := by
        rintro rfl
        simp [priorNew] at h
      obtain ⟨o', h1, h2, -⟩ := C179_jeffreys_violated ppf a b h0 hl
      rw [h] at h1; cases h1
      exact not_usable_of_nowhere h2 hu
    | modJeffreys a b c =>
      have hc : c < a := by
        by_contra h1
        obtain ⟨e, he⟩ := ((C179_refused ppf).2.2.2.1 a b c).mpr (not_lt.mp h1)
        rw [h] at he; cases he
      have hba : b ≤ a := by
        by_contra h1
        exact hl ⟨hc, not_le.mp h1⟩
      obtain ⟨o', h1, h2, -⟩ := C179_modJeffreys_violated ppf a b c hc hba
      rw [h] at h1; cases h1
      exact not_usable_of_nowhere h2 hu
  · intro hl
    obtain ⟨o', h1, h2⟩ := C179_legal_partial ppf args hl
    rw [h] at h1; cases h1
    exact h2

/-- Non-vacuity of the violations: `Jeffreys('k1', -10, 10)`, `ModifiedJeffreys('k1', 5, 1, 0)`, `HardBounds('k1', 5, 1)`, `Gaussian('k1', 5, -1)`. -/
example : ((-10 : ℝ) ≠ 0 ∧ ¬ PriorArgs.Legal (.jeffreys (-10) 10)) ∧ ((0 : ℝ) < 5 ∧ (1 : ℝ) ≤ 5) ∧ ((-1 : ℝ) ≤ 0) :=
  ⟨⟨by norm_num, fun h => by have := h.1; norm_num at this⟩, by norm_num, by norm_num⟩

/-- The planets meant by the argument: 1 to the count, or those of the list. -/
def PlanetArg.planets : PlanetArg → List Nat
  | .count n => List.range' 1 n.toNat
  | .list l => l

theorem eccNew_planets (planets : PlanetArg) (lims : LimitArg) : eccNew planets lims = match lims with
    | .float x => .ok (planets.planets.map (fun p => (p, x)))
    | .list l => if l.length = planets.planets.length then .ok (planets.planets.zip l) else .error .assertionError
    | .number _ => .error .typeError := by
  cases planets with
  | list l => cases lims <;> rfl
  | count n =>
    have h : (List.range n.toNat).map (· + 1) = List.range' 1 n.toNat := by
      rw [List.range'_eq_map_range]
      exact List.map_congr_left (fun x _ => Nat.add_comm x 1)
    cases lims <;> simp only [eccNew, PlanetArg.toSum, eccInit, h, PlanetArg.planets] <;> congr

/-- C179 for the eccentricity prior: it is accepted exactly for a `float`, or for as many limits as planets; then every planet of the argument has a limit, and it is its own. A limit given as an integer or as a
NumPy number is refused, whatever its value. -/
theorem C179_ecc (planets : PlanetArg) (lims : LimitArg) :
    (∀ x, eccNew planets (.number x) = .error .typeError) ∧
    ((∃ r, eccNew planets lims = .ok r) ↔ (∃ x, lims = .float x) ∨ ∃ l, lims = .list l ∧ l.length = planets.planets.length) ∧
    (∀ r, eccNew planets lims = .ok r → r.map Prod.fst = planets.planets ∧ (∀ x, lims = .float x → ∀ p ∈ r, p.2 = x) ∧ ∀ l, lims = .list l → r.map Prod.snd = l) ∧
    (∀ N : Nat, ∀ n, n ∈ (PlanetArg.count N).planets ↔ 1 ≤ n ∧ n ≤ N) := by
  refine ⟨fun x => rfl, ?_, ?_, ?_⟩
  · rw [eccNew_planets]
    cases lims with
    | float x => simp
    | list l =>
      by_cases h : l.length = planets.planets.length
      · simp [h]
      · simp [h]
    | number x => simp
  · intro r hr
    rw [eccNew_planets] at hr
    cases lims with
    | float x =>
      cases hr
      refine ⟨by rw [List.map_map]; exact List.map_id _, ?_, (fun l hl => by cases hl)⟩
      intro y hy p hp
      cases hy
      obtain ⟨q, -, rfl⟩ := List.mem_map.mp hp
      rfl
    | list l =>
      by_cases h : l.length = planets.planets.length
      · simp only [if_pos h] at hr
        cases hr
        refine ⟨List.map_fst_zip (by omega), (fun y hy => by cases hy), ?_⟩
        intro l' hl
        cases hl
        exact List.map_snd_zip (by omega)
      · simp [h] at hr
    | number x => simp at hr
  · intro N n
    simp only [PlanetArg.planets, Int.toNat_natCast, List.mem_range'_1]
    omega

/-- Non-vacuity: `EccentricityPrior(2)` and `EccentricityPrior([1, 3], [0.8, 0.9])` are accepted. -/
example : (∃ r, eccNew (.count 2) (.float 0.99) = .ok r) ∧ eccNew (.list [1, 3]) (.list [0.8, 0.9]) = .ok [(1, 0.8), (3, 0.9)] := ⟨⟨_, rfl⟩, rfl⟩

/-- C179 is false for the limits themselves (/repo/radvel/prior.py 108-113): a limit above 1 is accepted, and then an orbit that is not bound (`e = 3/2`) has a finite prior. -/
theorem C179_ecc_violated : ∃ pairs, eccNew (.count 1) (.float 2) = .ok pairs ∧ ∃ s, Built s ∧ (∃ o, OrbitAt s 1 o ∧ o.e = 3 / 2) ∧ ∃ y, eccCall pairs s false = .ok (.fin y) := by
  have hu : UserParams (Params.init (3 / 2 : ℝ) 1 .perTpEWK none) := .new _ _ _ _ (by decide)
  obtain ⟨s, h1, h2, h3, h4, _⟩ := hu.model
  have hB : Built s := .model _ _ hu h1
  have hp : IsPlanet s.params 1 := ⟨le_refl _, by rw [h4]; exact le_refl _⟩
  obtain ⟨o, ho⟩ := OrbitAt.exists hB hp
  have hrow : (rowBlock s.rows 0).at 2 = 3 / 2 := by
    obtain ⟨r, e1, e2⟩ := h2.wordRow .e 1 (by rw [h4]; decide) hp
    have e3 : valueOf s.params .e 1 = some (3 / 2) := by rw [h4]; rfl
    rw [e3] at e2
    injection e2 with e2
    have hsz := h2.inv.size
    have := rowBlock_at s.rows 0 2 (by rw [h4] at hsz; simp [Params.init] at hsz; omega) (by omega)
    simp only [Nat.sub_self, Nat.mul_zero, Nat.zero_add, PName.offset] at e1 this
    rw [e1] at this
    simp only [Option.map_some, Option.some.injEq] at this
    rw [← this, ← e2]
  have he : o.e = 3 / 2 := by
    have h5 := ho.block hB hp
    have h6 : (vToSynthBlock s.params.basis (rowBlock s.rows (1 - 1))).x2 = o.e := by rw [h5]
    rw [← h6, h4, ← hrow]
    rfl
  refine ⟨[(1, 2)], rfl, s, hB, ⟨o, ho, he⟩, _, (C43_ecc s hB [(1, 2)] (fun _ => o) ?_ false).2 ?_⟩
  · intro p hp'
    simp only [List.mem_singleton] at hp'
    subst hp'
    exact ⟨hp, ho⟩
  · intro p hp'
    simp only [List.mem_singleton] at hp'
    subst hp'
    simp only [he]
    norm_num

end Radvel
