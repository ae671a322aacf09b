import Verif.Props.Accuracy
import Verif.Props.FileModel

/-!
# C170: the posterior is that of the exact orbits

C154 gives the posterior of a setup file in terms of the velocities that the Kepler solver returned. Here these are the solvers of the code, and the density is that of the exact orbits.
-/

namespace Radvel

open Real ProbabilityTheory

theorem sum_le_sum_map {α : Type} (l : List α) (f g : α → ℝ) (h : ∀ a ∈ l, f a ≤ g a) : (l.map f).sum ≤ (l.map g).sum := List.sum_le_sum h

/-- Moving residuals by at most `δ` changes half their weighted sum of squares little. -/
theorem squares_close {α : Type} (l : List α) (a b v : α → ℝ) (δ x : ℝ) (hv : ∀ o ∈ l, 0 < v o) (hd : ∀ o ∈ l, |b o - a o| ≤ δ) :
    |(l.map fun o => (b o - x) ^ 2 / v o).sum / 2 - (l.map fun o => (a o - x) ^ 2 / v o).sum / 2| ≤ (l.map fun o => (δ * |a o - x| + δ ^ 2 / 2) / v o).sum := by
  induction l with
  | nil => simp
  | cons o t ih =>
    have ho := hv o (by simp)
    have h1 := ih (fun c hc => hv c (List.mem_cons_of_mem _ hc)) (fun c hc => hd c (List.mem_cons_of_mem _ hc))
    have h2 : |(b o - x) ^ 2 / v o / 2 - (a o - x) ^ 2 / v o / 2| ≤ (δ * |a o - x| + δ ^ 2 / 2) / v o := by
      have e : (b o - x) ^ 2 / v o / 2 - (a o - x) ^ 2 / v o / 2 = ((b o - a o) * (a o - x) + (b o - a o) ^ 2 / 2) / v o := by field_simp; ring
      rw [e, abs_div, abs_of_pos ho]
      apply div_le_div_of_nonneg_right _ ho.le
      have hδ := hd o (by simp)
      have h0 : 0 ≤ δ := (abs_nonneg _).trans hδ
      refine (abs_add_le _ _).trans (add_le_add ?_ ?_)
      · rw [abs_mul]
        exact mul_le_mul_of_nonneg_right hδ (abs_nonneg _)
      · rw [abs_div, abs_pow, abs_of_pos (by norm_num : (0 : ℝ) < 2)]
        exact div_le_div_of_nonneg_right (pow_le_pow_left₀ (abs_nonneg _) hδ 2) (by norm_num)
    simp only [List.map_cons, List.sum_cons]
    have e : (((b o - x) ^ 2 / v o + (t.map fun o => (b o - x) ^ 2 / v o).sum) / 2 - ((a o - x) ^ 2 / v o + (t.map fun o => (a o - x) ^ 2 / v o).sum) / 2) =
        ((b o - x) ^ 2 / v o / 2 - (a o - x) ^ 2 / v o / 2) + ((t.map fun o => (b o - x) ^ 2 / v o).sum / 2 - (t.map fun o => (a o - x) ^ 2 / v o).sum / 2) := by ring
    rw [e]
    exact (abs_add_le _ _).trans (add_le_add h2 h1)

/-- The sum of squares about the weighted mean, expanded about any other residuals. -/
theorem centred_expand {α : Type} (l : List α) (a b v : α → ℝ) (z u : ℝ)
    (hu : u * (l.map (fun o => 1 / v o)).sum = (l.map (fun o => b o / v o)).sum) :
    (l.map fun o => (b o - u) ^ 2 / v o).sum = (l.map fun o => (a o - z) ^ 2 / v o).sum + 2 * (l.map fun o => (b o - a o) * (a o - z) / v o).sum + (l.map fun o => (b o - a o) ^ 2 / v o).sum
      - (u - z) ^ 2 * (l.map (fun o => 1 / v o)).sum := by
  have h := square_completed l b v z u hu
  have e : (l.map fun o => (b o - z) ^ 2 / v o).sum = (l.map fun o => (a o - z) ^ 2 / v o).sum + 2 * (l.map fun o => (b o - a o) * (a o - z) / v o).sum + (l.map fun o => (b o - a o) ^ 2 / v o).sum := by
    clear h hu
    induction l with
    | nil => simp
    | cons o t ih => simp only [List.map_cons, List.sum_cons, ih]; ring
  rw [e] at h
  rw [show (u - z) ^ 2 = (z - u) ^ 2 by ring]
  linarith

theorem abs_sum_map_le {α : Type} (l : List α) (f g : α → ℝ) (h : ∀ a ∈ l, |f a| ≤ g a) : |(l.map f).sum| ≤ (l.map g).sum := by
  induction l with
  | nil => simp
  | cons o t ih =>
    simp only [List.map_cons, List.sum_cons]
    exact (abs_add_le _ _).trans (add_le_add (h o (by simp)) (ih fun c hc => h c (List.mem_cons_of_mem _ hc)))

/-- The same about the weighted means, which move too. -/
theorem centred_close {α : Type} (l : List α) (hl : l ≠ []) (a b v : α → ℝ) (δ z u : ℝ) (hv : ∀ o ∈ l, 0 < v o) (hd : ∀ o ∈ l, |b o - a o| ≤ δ)
    (hz : z * (l.map (fun o => 1 / v o)).sum = (l.map (fun o => a o / v o)).sum) (hu : u * (l.map (fun o => 1 / v o)).sum = (l.map (fun o => b o / v o)).sum) :
    |(l.map fun o => (b o - u) ^ 2 / v o).sum / 2 - (l.map fun o => (a o - z) ^ 2 / v o).sum / 2| ≤ (l.map fun o => (δ * |a o - z| + δ ^ 2 / 2) / v o).sum := by
  have hS := sum_inv_pos l v hv hl
  have h := centred_expand l a b v z u hu
  have h1 : |(l.map fun o => (b o - a o) * (a o - z) / v o).sum| ≤ (l.map fun o => δ * |a o - z| / v o).sum := by
    refine abs_sum_map_le l _ _ fun o ho => ?_
    rw [abs_div, abs_mul, abs_of_pos (hv o ho)]
    exact div_le_div_of_nonneg_right (mul_le_mul_of_nonneg_right (hd o ho) (abs_nonneg _)) (hv o ho).le
  have h2 : (l.map fun o => (b o - a o) ^ 2 / v o).sum ≤ (l.map fun o => δ ^ 2 / v o).sum := by
    refine sum_le_sum_map l _ _ fun o ho => ?_
    refine div_le_div_of_nonneg_right ?_ (hv o ho).le
    rw [← sq_abs]
    exact pow_le_pow_left₀ (abs_nonneg _) (hd o ho) 2
  have e1 : (l.map fun o => (δ * |a o - z| + δ ^ 2 / 2) / v o).sum = (l.map fun o => δ * |a o - z| / v o).sum + (l.map fun o => δ ^ 2 / v o).sum / 2 := by
    clear h1 h2 h hz hu hd hl hv hS
    induction l with
    | nil => simp
    | cons o t ih => simp only [List.map_cons, List.sum_cons, ih]; ring
  -- the weighted mean of the shifts
  have h3 : (u - z) ^ 2 * (l.map (fun o => 1 / v o)).sum ≤ (l.map fun o => (b o - a o) ^ 2 / v o).sum := by
    have hw : (u - z) * (l.map (fun o => 1 / v o)).sum = (l.map (fun o => (b o - a o) / v o)).sum := by
      rw [sub_mul, hz, hu, ← list_sum_map_sub]
      congr 1
      apply List.map_congr_left
      intro o _
      ring
    have := square_completed l (fun o => b o - a o) v 0 (u - z) hw
    have hn : 0 ≤ (l.map fun o => (b o - a o - (u - z)) ^ 2 / v o).sum := by
      apply List.sum_nonneg
      intro y hy
      obtain ⟨o, ho, rfl⟩ := List.mem_map.1 hy
      exact div_nonneg (sq_nonneg _) (hv o ho).le
    simp only [sub_zero, zero_sub, neg_sq] at this
    linarith
  have h4 : 0 ≤ (u - z) ^ 2 * (l.map (fun o => 1 / v o)).sum := mul_nonneg (sq_nonneg _) hS.le
  rw [e1, h]
  rw [abs_le] at h1 ⊢
  constructor <;> linarith [h1.1, h1.2]

theorem rowsDensity_eq (rows : List DataRow) (m : ℝ → ℝ) (jit γ : ℝ) :
    rowsDensity rows m jit γ = (rows.map (fun d => gaussianPDFReal 0 (d.err ^ 2 + jit ^ 2).toNNReal ((d.y - m d.t) - γ))).prod := by
  unfold rowsDensity
  congr 1
  apply List.map_congr_left
  intro d _
  rw [gaussian_shift]
  congr 1
  ring

/-- The constant in front of the exponential. -/
noncomputable def normConst (rows : List DataRow) (jit : ℝ) : ℝ := (rows.map (fun d => (√(2 * π * (d.err ^ 2 + jit ^ 2)))⁻¹)).prod

theorem normConst_pos (rows : List DataRow) (jit : ℝ) (hv : ∀ d ∈ rows, 0 < d.err ^ 2 + jit ^ 2) : 0 < normConst rows jit := by
  unfold normConst
  apply List.prod_pos
  intro y hy
  obtain ⟨d, hd, rfl⟩ := List.mem_map.1 hy
  have := hv d hd
  positivity

theorem density_log (rows : List DataRow) (m : ℝ → ℝ) (jit γ : ℝ) (hv : ∀ d ∈ rows, 0 < d.err ^ 2 + jit ^ 2) :
    0 < rowsDensity rows m jit γ ∧ log (rowsDensity rows m jit γ) = log (normConst rows jit) - (rows.map fun d => ((d.y - m d.t) - γ) ^ 2 / (d.err ^ 2 + jit ^ 2)).sum / 2 := by
  have hc := normConst_pos rows jit hv
  have e : rowsDensity rows m jit γ = normConst rows jit * exp (-(rows.map fun d => ((d.y - m d.t) - γ) ^ 2 / (d.err ^ 2 + jit ^ 2)).sum / 2) := by
    rw [rowsDensity_eq]
    exact prod_gaussian rows (fun d => d.y - m d.t) (fun d => d.err ^ 2 + jit ^ 2) hv γ
  rw [e]
  refine ⟨by positivity, ?_⟩
  rw [log_mul hc.ne' (exp_ne_zero _), log_exp]
  ring

/-- The weighted mean of the residuals. -/
noncomputable def meanOffset (rows : List DataRow) (m : ℝ → ℝ) (jit : ℝ) : ℝ :=
  (rows.map (fun d => (d.y - m d.t) / (d.err ^ 2 + jit ^ 2))).sum / (rows.map (fun d => 1 / (d.err ^ 2 + jit ^ 2))).sum

theorem meanOffset_eq (rows : List DataRow) (m : ℝ → ℝ) (jit : ℝ) (hl : rows ≠ []) (hv : ∀ d ∈ rows, 0 < d.err ^ 2 + jit ^ 2) :
    meanOffset rows m jit * (rows.map (fun d => 1 / (d.err ^ 2 + jit ^ 2))).sum = (rows.map (fun d => (d.y - m d.t) / (d.err ^ 2 + jit ^ 2))).sum :=
  div_mul_cancel₀ _ (sum_inv_pos rows _ hv hl).ne'

/-- The offset that fits best is the weighted mean. -/
theorem best_offset (rows : List DataRow) (m : ℝ → ℝ) (jit : ℝ) (hl : rows ≠ []) (hv : ∀ d ∈ rows, 0 < d.err ^ 2 + jit ^ 2) (γ : ℝ) :
    (∀ x, rowsDensity rows m jit x ≤ rowsDensity rows m jit γ) ↔ γ = meanOffset rows m jit := by
  have hS := sum_inv_pos rows (fun d => d.err ^ 2 + jit ^ 2) hv hl
  have key : ∀ x, log (rowsDensity rows m jit x) = log (rowsDensity rows m jit (meanOffset rows m jit)) - (x - meanOffset rows m jit) ^ 2 * (rows.map (fun d => 1 / (d.err ^ 2 + jit ^ 2))).sum / 2 := by
    intro x
    rw [(density_log rows m jit x hv).2, (density_log rows m jit _ hv).2, square_completed rows (fun d => d.y - m d.t) (fun d => d.err ^ 2 + jit ^ 2) x _ (meanOffset_eq rows m jit hl hv)]
    ring
  constructor
  · intro h
    have h1 := log_le_log (density_log rows m jit _ hv).1 (h (meanOffset rows m jit))
    rw [key γ] at h1
    have h2 : (γ - meanOffset rows m jit) ^ 2 ≤ 0 := by
      by_contra hc
      have := mul_pos (not_le.1 hc) hS
      linarith
    have h3 : γ - meanOffset rows m jit = 0 := by
      have := le_antisymm h2 (sq_nonneg _)
      exact pow_eq_zero_iff (by norm_num) |>.1 this
    linarith
  · rintro rfl x
    rw [← log_le_log_iff (density_log rows m jit x hv).1 (density_log rows m jit _ hv).1, key x]
    have := mul_nonneg (sq_nonneg (x - meanOffset rows m jit)) hS.le
    linarith

theorem marginal_log (rows : List DataRow) (m : ℝ → ℝ) (jit : ℝ) (hl : rows ≠ []) (hv : ∀ d ∈ rows, 0 < d.err ^ 2 + jit ^ 2) :
    0 < ∫ g : ℝ, rowsDensity rows m jit g ∧ log (∫ g : ℝ, rowsDensity rows m jit g) =
      log (rowsDensity rows m jit (meanOffset rows m jit)) + log √(2 * π * (1 / (rows.map (fun d => 1 / (d.err ^ 2 + jit ^ 2))).sum)) := by
  have hS := sum_inv_pos rows (fun d => d.err ^ 2 + jit ^ 2) hv hl
  have hz := meanOffset_eq rows m jit hl hv
  have key : ∀ x, rowsDensity rows m jit x = rowsDensity rows m jit (meanOffset rows m jit) * exp (-((x - meanOffset rows m jit) ^ 2 * (rows.map (fun d => 1 / (d.err ^ 2 + jit ^ 2))).sum) / 2) := by
    intro x
    rw [rowsDensity_eq, rowsDensity_eq, prod_gaussian rows (fun d => d.y - m d.t) (fun d => d.err ^ 2 + jit ^ 2) hv x, prod_gaussian rows (fun d => d.y - m d.t) (fun d => d.err ^ 2 + jit ^ 2) hv,
      square_completed rows (fun d => d.y - m d.t) (fun d => d.err ^ 2 + jit ^ 2) x _ hz, mul_assoc, ← exp_add]
    congr 2
    ring
  have hi : ∫ g : ℝ, rowsDensity rows m jit g = rowsDensity rows m jit (meanOffset rows m jit) * √(2 * π * (1 / (rows.map (fun d => 1 / (d.err ^ 2 + jit ^ 2))).sum)) := by
    rw [← gaussian_shift_integral _ (meanOffset rows m jit), ← MeasureTheory.integral_const_mul]
    congr 1
    exact funext key
  have hp := (density_log rows m jit (meanOffset rows m jit) hv).1
  have hq : 0 < √(2 * π * (1 / (rows.map (fun d => 1 / (d.err ^ 2 + jit ^ 2))).sum)) := by positivity
  rw [hi]
  exact ⟨mul_pos hp hq, log_mul hp.ne' hq.ne'⟩

theorem inst_close (P : SetupFile) (xs : List ℝ) (m m' : ℝ → ℝ) (δ γ : ℝ) (i : String) (hne : ∃ d ∈ P.data, d.tel = i)
    (he : ∀ d ∈ P.data, d.tel = i → d.err ≠ 0 ∨ valueAt P.params xs (.inst .jit ("_" ++ i)) ≠ 0) (hd : ∀ d ∈ P.data, d.tel = i → |m' d.t - m d.t| ≤ δ) (hγ : IsOffset P xs m i γ) :
    0 < instDensity P xs m i ∧ 0 < instDensity P xs m' i ∧ |log (instDensity P xs m' i) - log (instDensity P xs m i)| ≤ velocityEffect P xs m δ γ i := by
  classical
  have hmem : ∀ d ∈ P.data.filter fun r => r.tel = i, d ∈ P.data ∧ d.tel = i := fun d hd => by simpa using hd
  have hl : (P.data.filter fun r => r.tel = i) ≠ [] := by
    obtain ⟨d, d1, d2⟩ := hne
    exact List.ne_nil_of_mem (List.mem_filter.2 ⟨d1, by simpa using d2⟩)
  unfold IsOffset at hγ
  unfold instDensity velocityEffect
  generalize valueAt P.params xs (.inst .jit ("_" ++ i)) = jit at *
  generalize valueAt P.params xs (.inst .gamma ("_" ++ i)) = g at *
  generalize hr : (P.data.filter fun r => r.tel = i) = rows at *
  have hv : ∀ d ∈ rows, 0 < d.err ^ 2 + jit ^ 2 := by
    intro d hd
    obtain ⟨h1, h2⟩ := hmem d hd
    rcases he d h1 h2 with h | h
    · have := sq_pos_of_ne_zero h; positivity
    · have := sq_pos_of_ne_zero h; positivity
  have hclose : ∀ d ∈ rows, |(d.y - m' d.t) - (d.y - m d.t)| ≤ δ := by
    intro d hd'
    obtain ⟨h1, h2⟩ := hmem d hd'
    rw [show (d.y - m' d.t) - (d.y - m d.t) = -(m' d.t - m d.t) by ring, abs_neg]
    exact hd d h1 h2
  by_cases ha : Marginalised P.params (.inst .gamma ("_" ++ i))
  · rw [if_pos ha, if_pos ha]
    obtain ⟨p1, l1⟩ := marginal_log rows m jit hl hv
    obtain ⟨p2, l2⟩ := marginal_log rows m' jit hl hv
    refine ⟨p1, p2, ?_⟩
    have hg := (best_offset rows m jit hl hv γ).1 (hγ.2 ha)
    rw [l1, l2, (density_log rows m jit _ hv).2, (density_log rows m' jit _ hv).2, ← hg]
    have hz := meanOffset_eq rows m jit hl hv
    rw [← hg] at hz
    have := centred_close rows hl (fun d => d.y - m d.t) (fun d => d.y - m' d.t) (fun d => d.err ^ 2 + jit ^ 2) δ γ _ hv hclose hz (meanOffset_eq rows m' jit hl hv)
    rw [abs_sub_comm] at this
    refine le_trans (le_of_eq ?_) this
    congr 1
    ring
  · rw [if_neg ha, if_neg ha]
    obtain ⟨p1, l1⟩ := density_log rows m jit g hv
    obtain ⟨p2, l2⟩ := density_log rows m' jit g hv
    refine ⟨p1, p2, ?_⟩
    rw [l1, l2]
    have := squares_close rows (fun d => d.y - m d.t) (fun d => d.y - m' d.t) (fun d => d.err ^ 2 + jit ^ 2) δ g hv hclose
    rw [abs_sub_comm, ← hγ.1 ha] at this
    refine le_trans (le_of_eq ?_) this
    rw [hγ.1 ha]
    congr 1
    ring

theorem prod_close {D D' b : String → ℝ} : ∀ is : List String, (∀ i ∈ is, 0 < D i ∧ 0 < D' i ∧ |log (D' i) - log (D i)| ≤ b i) →
    0 < (is.map D).prod ∧ 0 < (is.map D').prod ∧ |log (is.map D').prod - log (is.map D).prod| ≤ (is.map b).sum
  | [], _ => by simp
  | i :: t, h => by
    obtain ⟨h1, h2, h3⟩ := prod_close t fun j hj => h j (List.mem_cons_of_mem _ hj)
    obtain ⟨h4, h5, h6⟩ := h i (by simp)
    simp only [List.map_cons, List.prod_cons, List.sum_cons]
    refine ⟨mul_pos h4 h1, mul_pos h5 h2, ?_⟩
    rw [log_mul h4.ne' h1.ne', log_mul h5.ne' h2.ne']
    rw [show log (D' i) + log (t.map D').prod - (log (D i) + log (t.map D).prod) = (log (D' i) - log (D i)) + (log (t.map D').prod - log (t.map D).prod) by ring]
    exact (abs_add_le _ _).trans (add_le_add h6 h3)

/-- C170: take any setup file (without Gaussian processes, decorrelation and `logjit` parameters), the posterior made from it with any priors, and anything that was asked of it before. For an array `xs` with positive periods and eccentricities
from 0 to 0.99 `logprob_array(xs)` is a number whenever the priors are, with either Kepler solver, and up to the sum of the priors it is the logarithm of the density of the velocities around the exact orbits, to within
the effect of velocities that are wrong by `1.42e-9 Σ |K|`. (`hpole` as in C168.) -/
theorem C170_posterior (dflt : ℝ) (P : SetupFile) (hu : UserParams P.params) (hj : ∀ k, Key.inst .logjit k ∉ P.params.items.keys) (hh : P.hnames = none)
    (r : SetupPost) (hr : P.initialize dflt false = .ok r) (p : PostState) (hp : PostState.init ⟨r.st, none⟩ = .ok p) (priors : List Prior) (hq : ∀ q ∈ priors, q.OfFile P.params)
    (solve : ℝ → ℝ → Option ℝ) (formula : ℝ → ℝ → ℝ → ℝ → ℝ) (hc : CodeSolver solve formula) (tb : ℝ) (Ls : List RVLike) (hL : r.likes.map Prod.snd = Ls.map InstLike.rv) (calls : List PostCall)
    (xs : List ℝ) (hx : xs.length = (freeOrder P.params).length) (orb : Nat → Synth) (ho : Elements (withFree P.params xs) orb)
    (hper : ∀ m, IsPlanet P.params m → 0 < (orb m).per ∧ 0 ≤ (orb m).e ∧ (orb m).e ≤ 0.99)
    (E : Nat → ℝ → ℝ) (hE : ∀ d ∈ P.data, ∀ m, IsPlanet P.params m → IsEccAnomaly (orb m).e (meanAnomaly d.t (orb m).tp (orb m).per) (E m d.t))
    (hpole : ∀ d ∈ P.data, ∀ m, IsPlanet P.params m → ∀ E', solve (meanAnomaly d.t (orb m).tp (orb m).per) (orb m).e = some E' → cos (E' / 2) ≠ 0)
    (he : ∀ d ∈ P.data, d.tel ∈ P.instnames → d.err ≠ 0 ∨ valueAt P.params xs (.inst .jit ("_" ++ d.tel)) ≠ 0)
    (s' : VState ℝ) (hs' : VState.init (withFree P.params xs) = .ok s') (vals : List Fl) (hvals : PriorValues s' priors vals) (x : ℝ) (hfin : vals.sum = .fin x)
    (γ : String → ℝ) (hγ : ∀ i ∈ P.instnames, IsOffset P xs (fileVelocity P.params xs tb fun m t => exactVel (orb m).e (orb m).w (orb m).k (E m t)) i (γ i)) :
    let like := compositeLogprob (Ls.map fun L => L.logprob fun s t => modelCall (driveOf solve formula) tb s none t)
    let exact := fileVelocity P.params xs tb fun m t => exactVel (orb m).e (orb m).w (orb m).k (E m t)
    ∃ l, (({ p with priors := priors }.runAll like calls).logprobArray like xs).2 = .ok (.fin (x + l)) ∧
      |l - log ((firsts P.instnames).map (instDensity P xs exact)).prod| ≤
        ((firsts P.instnames).map fun i => velocityEffect P xs exact (1.42e-9 * ∑ m ∈ Finset.Icc 1 P.params.numPlanets, |(orb m).k|) (γ i) i).sum := by
  intro like exact
  have one : ∀ m t, ∃ v, IsPlanet P.params m → (∃ d ∈ P.data, d.t = t) →
      driveOf solve formula t (orb m) = some v ∧ |v - exactVel (orb m).e (orb m).w (orb m).k (E m t)| ≤ 1.42e-9 * |(orb m).k| := by
    intro m t
    by_cases hm : IsPlanet P.params m
    · by_cases ht : ∃ d ∈ P.data, d.t = t
      · obtain ⟨d, d1, rfl⟩ := ht
        obtain ⟨h1, h2, h3⟩ := hper m hm
        have : ∃ v, driveOf solve formula d.t (orb m) = some v ∧ |v - exactVel (orb m).e (orb m).w (orb m).k (E m d.t)| ≤ 1.42e-9 * |(orb m).k| := by
          rcases hc with ⟨n, hn, rfl, rfl⟩ | ⟨rfl, rfl⟩
          · exact C168_numpy n hn _ _ _ _ _ _ _ h1 h2 h3 (hE d d1 m hm) (hpole d d1 m hm)
          · exact C168_c _ _ _ _ _ _ _ h1 h2 h3 (hE d d1 m hm) (hpole d d1 m hm)
        exact this.imp fun v hv _ _ => hv
      · exact ⟨0, fun _ h => absurd h ht⟩
    · exact ⟨0, fun h => absurd h hm⟩
  choose v hv using one
  obtain ⟨s2, l, hsame, h1, h2, h3, h4⟩ := file_posterior dflt P hu hj hh r hr p hp priors hq (driveOf solve formula) tb Ls hL calls xs hx orb ho v
    (fun d d1 _ m m1 m2 => (hv m d.t ⟨m1, m2⟩ ⟨d, d1, rfl⟩).1) he s' hs'
  have hpv : PriorValues s2 priors vals := hvals.imp fun q w hqw => by rw [Prior.call_same hsame]; exact hqw
  refine ⟨l, h1.trans ?_, ?_⟩
  · rw [(C47_sum (LikeEval.value like) s2 priors vals hpv).1 x _ hfin h3, hfin]
    rfl
  have hbas : P.params.basis = P.fittingBasis := by
    by_contra hcon
    unfold SetupFile.initialize at hr
    rw [if_pos hcon] at hr
    cases hr
  have hex := (C119_exactly dflt P false ⟨hu, hbas, hj, by simp⟩ hh).1 ⟨r, hr⟩
  have hmodel : ∀ d ∈ P.data, |fileVelocity P.params xs tb v d.t - exact d.t| ≤ 1.42e-9 * ∑ m ∈ Finset.Icc 1 P.params.numPlanets, |(orb m).k| := by
    intro d d1
    have e : fileVelocity P.params xs tb v d.t - exact d.t = ∑ m ∈ Finset.Icc 1 P.params.numPlanets, (v m d.t - exactVel (orb m).e (orb m).w (orb m).k (E m d.t)) := by
      simp only [exact, fileVelocity]
      rw [Finset.sum_sub_distrib]
      ring
    rw [e, Finset.mul_sum]
    refine (Finset.abs_sum_le_sum_abs _ _).trans (Finset.sum_le_sum fun m hm => ?_)
    have hm' : IsPlanet P.params m := by simpa [IsPlanet] using hm
    exact (hv m d.t hm' ⟨d, d1, rfl⟩).2
  have hall := prod_close (D := instDensity P xs exact) (D' := instDensity P xs (fileVelocity P.params xs tb v))
    (b := fun i => velocityEffect P xs exact (1.42e-9 * ∑ m ∈ Finset.Icc 1 P.params.numPlanets, |(orb m).k|) (γ i) i) (firsts P.instnames) (by
      intro i hi
      have hi' := (mem_firsts _ _).1 hi
      exact inst_close P xs exact (fileVelocity P.params xs tb v) _ (γ i) i (hex.2 i hi').1 (fun d d1 d2 => by rw [← d2]; exact he d d1 (by rw [d2]; exact hi')) (fun d d1 _ => hmodel d d1) (hγ i hi'))
  rw [show l = log ((firsts P.instnames).map (instDensity P xs (fileVelocity P.params xs tb v))).prod by rw [← h4, log_exp]]
  exact hall.2.2

/-- C170: with the C extension and without it the two values of the posterior differ by at most twice that effect. -/
theorem C170_agree (dflt : ℝ) (P : SetupFile) (hu : UserParams P.params) (hj : ∀ k, Key.inst .logjit k ∉ P.params.items.keys) (hh : P.hnames = none)
    (r : SetupPost) (hr : P.initialize dflt false = .ok r) (p : PostState) (hp : PostState.init ⟨r.st, none⟩ = .ok p) (priors : List Prior) (hq : ∀ q ∈ priors, q.OfFile P.params)
    (passes : Nat) (hn : 27 ≤ passes) (tb : ℝ) (Ls : List RVLike) (hL : r.likes.map Prod.snd = Ls.map InstLike.rv) (calls calls' : List PostCall)
    (xs : List ℝ) (hx : xs.length = (freeOrder P.params).length) (orb : Nat → Synth) (ho : Elements (withFree P.params xs) orb)
    (hper : ∀ m, IsPlanet P.params m → 0 < (orb m).per ∧ 0 ≤ (orb m).e ∧ (orb m).e ≤ 0.99)
    (E : Nat → ℝ → ℝ) (hE : ∀ d ∈ P.data, ∀ m, IsPlanet P.params m → IsEccAnomaly (orb m).e (meanAnomaly d.t (orb m).tp (orb m).per) (E m d.t))
    (hpole : ∀ d ∈ P.data, ∀ m, IsPlanet P.params m → ∀ E', npSolve passes (meanAnomaly d.t (orb m).tp (orb m).per) (orb m).e = some E' → cos (E' / 2) ≠ 0)
    (hpole' : ∀ d ∈ P.data, ∀ m, IsPlanet P.params m → ∀ E', cSolve (meanAnomaly d.t (orb m).tp (orb m).per) (orb m).e = some E' → cos (E' / 2) ≠ 0)
    (he : ∀ d ∈ P.data, d.tel ∈ P.instnames → d.err ≠ 0 ∨ valueAt P.params xs (.inst .jit ("_" ++ d.tel)) ≠ 0)
    (s' : VState ℝ) (hs' : VState.init (withFree P.params xs) = .ok s') (vals : List Fl) (hvals : PriorValues s' priors vals) (x : ℝ) (hfin : vals.sum = .fin x)
    (γ : String → ℝ) (hγ : ∀ i ∈ P.instnames, IsOffset P xs (fileVelocity P.params xs tb fun m t => exactVel (orb m).e (orb m).w (orb m).k (E m t)) i (γ i)) :
    let like := compositeLogprob (Ls.map fun L => L.logprob fun s t => modelCall (driveOf (npSolve passes) rvNumpy) tb s none t)
    let like' := compositeLogprob (Ls.map fun L => L.logprob fun s t => modelCall (driveOf cSolve rvC) tb s none t)
    ∃ l l', (({ p with priors := priors }.runAll like calls).logprobArray like xs).2 = .ok (.fin l) ∧ (({ p with priors := priors }.runAll like' calls').logprobArray like' xs).2 = .ok (.fin l') ∧
      |l - l'| ≤ 2 * ((firsts P.instnames).map fun i => velocityEffect P xs (fileVelocity P.params xs tb fun m t => exactVel (orb m).e (orb m).w (orb m).k (E m t))
        (1.42e-9 * ∑ m ∈ Finset.Icc 1 P.params.numPlanets, |(orb m).k|) (γ i) i).sum := by
  intro like like'
  obtain ⟨l, h1, h2⟩ := C170_posterior dflt P hu hj hh r hr p hp priors hq _ _ (.inl ⟨passes, hn, rfl, rfl⟩) tb Ls hL calls xs hx orb ho hper E hE hpole he s' hs' vals hvals x hfin γ hγ
  obtain ⟨l', h3, h4⟩ := C170_posterior dflt P hu hj hh r hr p hp priors hq _ _ (.inr ⟨rfl, rfl⟩) tb Ls hL calls' xs hx orb ho hper E hE hpole' he s' hs' vals hvals x hfin γ hγ
  refine ⟨x + l, x + l', h1, h3, ?_⟩
  rw [show x + l - (x + l') = l - l' by ring]
  have := abs_sub_le l (log ((firsts P.instnames).map (instDensity P xs (fileVelocity P.params xs tb fun m t => exactVel (orb m).e (orb m).w (orb m).k (E m t)))).prod) l'
  rw [abs_sub_comm l'] at h4
  linarith

/-- Every instrument with observations has such an offset. -/
theorem offset_exists (P : SetupFile) (xs : List ℝ) (m : ℝ → ℝ) (i : String) (hne : ∃ d ∈ P.data, d.tel = i)
    (he : ∀ d ∈ P.data, d.tel = i → d.err ≠ 0 ∨ valueAt P.params xs (.inst .jit ("_" ++ i)) ≠ 0) : ∃ γ, IsOffset P xs m i γ := by
  by_cases ha : Marginalised P.params (.inst .gamma ("_" ++ i))
  · refine ⟨meanOffset (P.data.filter fun r => r.tel = i) m (valueAt P.params xs (.inst .jit ("_" ++ i))), fun h => absurd ha h, fun _ => ?_⟩
    refine (best_offset _ m _ ?_ ?_ _).2 rfl
    · obtain ⟨d, d1, d2⟩ := hne
      exact List.ne_nil_of_mem (List.mem_filter.2 ⟨d1, by simpa using d2⟩)
    · intro d hd
      obtain ⟨h1, h2⟩ : d ∈ P.data ∧ d.tel = i := by simpa using hd
      rcases he d h1 h2 with h | h
      · have := sq_pos_of_ne_zero h; positivity
      · have := sq_pos_of_ne_zero h; positivity
  · exact ⟨_, fun _ => rfl, fun h => absurd h ha⟩

/-- The file of the example at a planet with eccentricity 1/4 whose transit is at periastron. -/
theorem example_orbit : let P := exampleSetup ["j", "k"] none
    let xs : List ℝ := [1, 1, 0, 1 / 2, 1, 1, 1, 1, 1, 1, 1, 1]
    xs.length = (freeOrder P.params).length ∧ ∀ s, s = synthOfVals (withFree P.params xs).basis (valsOf (withFree P.params xs) 1) → s.per = 1 ∧ s.tp = 1 ∧ s.e = 1 / 4 ∧ s.k = 1 := by
  intro P xs
  have hf : freeOrder P.params = [.orb .per 1, .orb .tc 1, .orb .secosw 1, .orb .sesinw 1, .orb .k 1, .inst .jit "_j", .inst .gamma "_k", .inst .jit "_k", .inst .gp "_amp_j", .inst .gp "_per_j",
      .inst .gp "_perlength_j", .inst .gp "_explength_j"] := rfl
  refine ⟨by rw [hf]; rfl, ?_⟩
  rintro s rfl
  have hv : ∀ (k : Key) (x : PName) (i : Nat) (y : ℝ), k = .orb x 1 → k ∈ P.params.items.keys → isFree P.params k = true → (freeOrder P.params).idxOf k = i → xs.getD i 0 = y → valsOf (withFree P.params xs) 1 x = y := by
    rintro k x i y rfl h1 h2 h3 h4
    unfold valsOf valueOf
    rw [withFree_get?]
    obtain ⟨q, hq⟩ := Dict.exists_get?_of_mem _ h1
    rw [hq]
    simp only [Option.map_some, Option.getD_some]
    unfold valueAt
    rw [if_pos h2, h3, h4]
  have hk : P.params.items.keys = [.orb .per 1, .orb .tc 1, .orb .secosw 1, .orb .sesinw 1, .orb .k 1, .inst .gamma "_j", .inst .jit "_j", .inst .gamma "_k", .inst .jit "_k"] ++ exampleHnames := exampleSetup_keys
  have v1 := hv (.orb .per 1) .per 0 1 rfl (by rw [hk]; simp) rfl (by rw [hf]; rfl) rfl
  have v2 := hv (.orb .tc 1) .tc 1 1 rfl (by rw [hk]; simp) rfl (by rw [hf]; rfl) rfl
  have v3 := hv (.orb .secosw 1) .secosw 2 0 rfl (by rw [hk]; simp) rfl (by rw [hf]; rfl) rfl
  have v4 := hv (.orb .sesinw 1) .sesinw 3 (1 / 2) rfl (by rw [hk]; simp) rfl (by rw [hf]; rfl) rfl
  have v5 := hv (.orb .k 1) .k 4 1 rfl (by rw [hk]; simp) rfl (by rw [hf]; rfl) rfl
  have hb : (withFree P.params xs).basis = .perTcSecoswSesinwK := rfl
  rw [hb]
  have hw : arctan2 (1 / 2) 0 = π / 2 := by
    unfold arctan2
    rw [show (⟨0, 1 / 2⟩ : ℂ) = ((1 / 2 : ℝ) : ℂ) * Complex.I by apply Complex.ext <;> simp, Complex.arg_real_mul _ (by norm_num), Complex.arg_I]
  have htp : timetransToTimeperi 1 1 (1 / 4) (π / 2) = 1 := by
    unfold timetransToTimeperi eccAnomalyAt
    norm_num
  simp only [synthOfVals, v1, v2, v3, v4, v5]
  norm_num
  norm_num at hw htp
  rw [hw, htp]

/-- Non-vacuity (the remaining hypotheses are those of the first example of C154): the orbit is eccentric, both solvers find the anomaly at the times of the three observations, and one offset is marginalised. -/
example : ∃ (P : SetupFile) (xs : List ℝ) (orb : Nat → Synth) (E : Nat → ℝ → ℝ) (γ : String → ℝ), P.params.numPlanets = 1 ∧ 0 < (orb 1).e ∧ Marginalised P.params (.inst .gamma "_j") ∧ UserParams P.params ∧
    xs.length = (freeOrder P.params).length ∧ Elements (withFree P.params xs) orb ∧ (∀ m, IsPlanet P.params m → 0 < (orb m).per ∧ 0 ≤ (orb m).e ∧ (orb m).e ≤ 0.99) ∧
    (∀ d ∈ P.data, ∀ m, IsPlanet P.params m → IsEccAnomaly (orb m).e (meanAnomaly d.t (orb m).tp (orb m).per) (E m d.t)) ∧
    (∀ d ∈ P.data, ∀ m, IsPlanet P.params m → ∀ E', npSolve 27 (meanAnomaly d.t (orb m).tp (orb m).per) (orb m).e = some E' → cos (E' / 2) ≠ 0) ∧
    (∀ d ∈ P.data, ∀ m, IsPlanet P.params m → ∀ E', cSolve (meanAnomaly d.t (orb m).tp (orb m).per) (orb m).e = some E' → cos (E' / 2) ≠ 0) ∧
    (∀ d ∈ P.data, d.tel ∈ P.instnames → d.err ≠ 0 ∨ valueAt P.params xs (.inst .jit ("_" ++ d.tel)) ≠ 0) ∧
    ∀ i ∈ P.instnames, IsOffset P xs (fileVelocity P.params xs 0 fun m t => exactVel (orb m).e (orb m).w (orb m).k (E m t)) i (γ i) := by
  have hP := exampleSetup_ready ["j", "k"] none false
  obtain ⟨hx, horb⟩ := example_orbit
  set xs : List ℝ := [1, 1, 0, 1 / 2, 1, 1, 1, 1, 1, 1, 1, 1] with hxs
  set orb : Nat → Synth := fun m => synthOfVals (withFree (exampleSetup ["j", "k"] none).params xs).basis (valsOf (withFree (exampleSetup ["j", "k"] none).params xs) m) with horb'
  obtain ⟨o1, o2, o3, o4⟩ := horb (orb 1) rfl
  have hone : ∀ m, IsPlanet (exampleSetup ["j", "k"] none).params m → m = 1 := by
    rintro m ⟨h1, h2⟩
    have : (exampleSetup ["j", "k"] none).params.numPlanets = 1 := rfl
    omega
  have hM : ∀ d ∈ (exampleSetup ["j", "k"] none).data, meanAnomaly d.t (orb 1).tp (orb 1).per = 0 := by
    intro d hd
    rw [o1, o2]
    unfold meanAnomaly
    simp only [exampleSetup, List.mem_cons, List.not_mem_nil, or_false] at hd
    rcases hd with rfl | rfl | rfl <;> norm_num
  have he : ∀ d ∈ (exampleSetup ["j", "k"] none).data, d.err ≠ 0 := by
    intro d hd
    simp only [exampleSetup, List.mem_cons, List.not_mem_nil, or_false] at hd
    rcases hd with rfl | rfl | rfl <;> norm_num
  have hoff : ∀ i ∈ (exampleSetup ["j", "k"] none).instnames, ∃ g, IsOffset (exampleSetup ["j", "k"] none) xs
      (fileVelocity (exampleSetup ["j", "k"] none).params xs 0 fun m t => exactVel (orb m).e (orb m).w (orb m).k 0) i g := by
    intro i hi
    refine offset_exists _ _ _ _ ?_ fun d d1 _ => .inl (he d d1)
    simp only [exampleSetup, List.mem_cons, List.not_mem_nil, or_false] at hi
    rcases hi with rfl | rfl <;> simp [exampleSetup]
  choose! γ hγ using hoff
  refine ⟨exampleSetup ["j", "k"] none, xs, orb, fun _ _ => 0, γ, rfl, by rw [o3]; norm_num, ⟨_, rfl, rfl, rfl⟩, hP.user, hx, elements_exist _ (withFree_user hP.user xs).good.complete, ?_, ?_, ?_, ?_,
    fun d d1 _ => .inl (he d d1), hγ⟩
  · intro m hm
    rw [hone m hm, o1, o3]
    norm_num
  · intro d d1 m hm
    rw [hone m hm, hM d d1]
    simp [IsEccAnomaly]
  · intro d d1 m hm E' h
    rw [hone m hm, hM d d1, (solve_zero _ _).1] at h
    cases h
    simp
  · intro d d1 m hm E' h
    rw [hone m hm, hM d d1, (solve_zero _ 0).2] at h
    cases h
    simp

end Radvel
