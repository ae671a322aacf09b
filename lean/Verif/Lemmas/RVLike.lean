import Verif.Model.RVLike
import Verif.Lemmas.Prior
import Mathlib.Probability.Distributions.Gaussian.Real

namespace Radvel
open Real ProbabilityTheory

theorem points_ok (mod : Curve) (L : RVLike) (s : VState ℝ) (m : ℝ → Option ℝ) (h : ∀ o ∈ L.obs, mod s o.t = .ok (m o.t)) :
    L.points mod s = .ok (L.obs.map (fun o => (o, m o.t))) := by
  unfold RVLike.points
  revert h
  generalize L.obs = l
  intro h
  induction l with
  | nil => rfl
  | cons o t ih =>
    rw [List.mapM_cons, ih (fun o' ho => h o' (List.mem_cons_of_mem _ ho)), h o (by simp)]
    rfl

/-- The term that one decorrelation parameter subtracts, as a function of the observation. -/
noncomputable def RVLike.decFun1 (L : RVLike) (s : VState ℝ) (parname : String) : Except PyErr (Obs → ℝ) :=
  match (splitU parname.toList)[1]? with
  | none => .error .indexError
  | some var =>
    match L.pars s var with
    | .error e => .error e
    | .ok pars =>
      if var ∉ L.decVars then .error .keyError
      else if L.obs.all (fun o => (o.dec var).isFinite) then
        .ok (fun o => poly1d pars ((o.dec var).toReal - mean (L.obs.map (fun o => (o.dec var).toReal))))
      else .ok (fun _ => 0)

noncomputable def RVLike.decAcc (L : RVLike) (s : VState ℝ) (f : Obs → ℝ) (p : String) : Except PyErr (Obs → ℝ) :=
  match L.decFun1 s p with
  | .error e => .error e
  | .ok g => .ok (fun o => f o + g o)

/-- Everything decorrelation subtracts. -/
noncomputable def RVLike.decFun (L : RVLike) (s : VState ℝ) : Except PyErr (Obs → ℝ) :=
  L.decParams.foldlM (L.decAcc s) (fun _ => 0)

theorem decorrStep_eq (L : RVLike) (s : VState ℝ) (h : Obs → Option ℝ) (f : Obs → ℝ) (p : String) :
    L.decorrStep s (L.obs.map (fun o => (h o).map (fun x => x - f o))) p =
      match L.decAcc s f p with
      | .error e => .error e
      | .ok g => .ok (L.obs.map (fun o => (h o).map (fun x => x - g o))) := by
  unfold RVLike.decorrStep RVLike.decAcc RVLike.decFun1
  cases hs : (splitU p.toList)[1]? with
  | none => rfl
  | some var =>
    simp only
    cases hp : L.pars s var with
    | error e => rfl
    | ok pars =>
      simp only
      by_cases hv : var ∈ L.decVars
      · rw [if_neg (not_not_intro hv), if_neg (not_not_intro hv)]
        by_cases hf : L.obs.all (fun o => (o.dec var).isFinite) = true
        · rw [if_pos hf, if_pos hf]
          simp only
          congr 1
          generalize hM : mean (L.obs.map (fun o => (o.dec var).toReal)) = M
          clear hM hf
          induction L.obs with
          | nil => rfl
          | cons o t ih =>
            simp only [List.map_cons, List.zipWith_cons_cons, ih]
            congr 1
            cases h o with
            | none => rfl
            | some x => simp [sub_sub]
        · rw [if_neg hf, if_neg hf]
          simp
      · rw [if_pos hv, if_pos hv]

theorem decorrFold_eq (L : RVLike) (s : VState ℝ) (h : Obs → Option ℝ) (ps : List String) (f : Obs → ℝ) :
    ps.foldlM (L.decorrStep s) (L.obs.map (fun o => (h o).map (fun x => x - f o))) =
      match ps.foldlM (L.decAcc s) f with
      | .error e => .error e
      | .ok g => .ok (L.obs.map (fun o => (h o).map (fun x => x - g o))) := by
  induction ps generalizing f with
  | nil => rfl
  | cons p t ih =>
    rw [List.foldlM_cons, List.foldlM_cons, decorrStep_eq]
    cases hp : L.decAcc s f p with
    | error e => rfl
    | ok g => exact ih g

/-- The gamma used by `residuals`. -/
noncomputable def gammaUsed (L : RVLike) (m : ℝ → Option ℝ) (g j : Row ℝ) : ℝ :=
  if g.analytic then weightedOffset (L.obs.map (fun o => (o, m o.t))) j.value else g.value

/-- The state left by `residuals`. -/
noncomputable def gammaWritten (L : RVLike) (m : ℝ → Option ℝ) (s : VState ℝ) (g j : Row ℝ) : VState ℝ :=
  if g.analytic then { s with rows := s.rows.set L.gammaIdx { g with value := gammaUsed L m g j } } else s

theorem residuals_eq (mod : Curve) (L : RVLike) (s : VState ℝ) (m : ℝ → Option ℝ) (h : ∀ o ∈ L.obs, mod s o.t = .ok (m o.t))
    (g j : Row ℝ) (hg : s.rows[L.gammaIdx]? = some g) (hj : s.rows[L.jitIdx]? = some j) :
    L.residuals mod s =
      match L.decFun (gammaWritten L m s g j) with
      | .error e => .error e
      | .ok D => .ok (gammaWritten L m s g j, L.obs.map (fun o => (m o.t).map (fun x => o.y - gammaUsed L m g j - x - D o))) := by
  unfold RVLike.residuals
  rw [points_ok mod L s m h]
  simp only [readRow, hg, hj, bind, Except.bind, List.map_map, Function.comp_def]
  have e1 : (if g.analytic = true then weightedOffset (L.obs.map (fun o => (o, m o.t))) j.value else g.value) = gammaUsed L m g j := rfl
  rw [e1]
  have e2 : (if g.analytic = true then { s with rows := s.rows.set L.gammaIdx { g with value := gammaUsed L m g j } } else s)
      = gammaWritten L m s g j := rfl
  rw [e2]
  have e3 : (L.obs.map (fun o => (m o.t).map (fun x => o.y - gammaUsed L m g j - x)))
      = L.obs.map (fun o => ((m o.t).map (fun x => o.y - gammaUsed L m g j - x)).map (fun x => x - (fun _ => (0:ℝ)) o)) := by
    apply List.map_congr_left
    intro o _
    cases m o.t <;> simp
  rw [e3, decorrFold_eq L _ (fun o => (m o.t).map (fun x => o.y - gammaUsed L m g j - x))]
  unfold RVLike.decFun
  cases L.decParams.foldlM (L.decAcc (gammaWritten L m s g j)) (fun _ => 0) with
  | error e => rfl
  | ok D =>
    simp only [pure, Except.pure]
    congr 2
    apply List.map_congr_left
    intro o _
    cases m o.t <;> simp

theorem gammaWritten_row (L : RVLike) (m : ℝ → Option ℝ) (s : VState ℝ) (g j : Row ℝ) (hg : s.rows[L.gammaIdx]? = some g) :
    (gammaWritten L m s g j).rows[L.gammaIdx]? = some { g with value := gammaUsed L m g j } := by
  unfold gammaWritten
  split
  · have : L.gammaIdx < s.rows.length := (List.getElem?_eq_some_iff.1 hg).1
    simp [this]
  · rename_i hna
    rw [hg]
    simp [gammaUsed, hna]

/-- The value of `logprob`. -/
noncomputable def likeValue (L : RVLike) (m : ℝ → Option ℝ) (g j : Row ℝ) (D : Obs → ℝ) : Fl :=
  let ll := loglikeJitter (L.obs.map (fun o => (m o.t).map (fun x => o.y - gammaUsed L m g j - x - D o))) (L.obs.map (fun o => o.var j.value))
  if g.analytic then ll + marginalTerm (L.obs.map (fun o => o.var j.value)) else ll

theorem logprob_eq (mod : Curve) (L : RVLike) (s : VState ℝ) (m : ℝ → Option ℝ) (h : ∀ o ∈ L.obs, mod s o.t = .ok (m o.t))
    (g j : Row ℝ) (hg : s.rows[L.gammaIdx]? = some g) (hj : s.rows[L.jitIdx]? = some j) :
    L.logprob mod s =
      match L.decFun (gammaWritten L m s g j) with
      | .error e => .error e
      | .ok D => .ok (gammaWritten L m s g j, likeValue L m g j D) := by
  unfold RVLike.logprob
  rw [residuals_eq mod L s m h g j hg hj]
  simp only [readRow, hj, bind, Except.bind]
  cases L.decFun (gammaWritten L m s g j) with
  | error e => rfl
  | ok D =>
    simp only [gammaWritten_row L m s g j hg]
    rfl

/-! ### numbers -/

theorem list_sum_map_sub {α : Type} (l : List α) (f g : α → ℝ) : (l.map (fun a => f a - g a)).sum = (l.map f).sum - (l.map g).sum := by
  induction l with
  | nil => simp
  | cons a t ih => simp only [List.map_cons, List.sum_cons, ih]; ring

theorem list_sum_map_mul {α : Type} (c : ℝ) (l : List α) (f : α → ℝ) : (l.map (fun a => c * f a)).sum = c * (l.map f).sum := by
  induction l with
  | nil => simp
  | cons a t ih => simp only [List.map_cons, List.sum_cons, ih]; ring

theorem zipWith_map_same {α β γ δ : Type} (l : List α) (f : α → β) (g : α → γ) (h : β → γ → δ) :
    (l.map f).zipWith h (l.map g) = l.map (fun a => h (f a) (g a)) := by
  induction l with
  | nil => rfl
  | cons a t ih => simp [ih]

theorem loglikeJitter_fin (obs : List Obs) (r v : Obs → ℝ) (hv : ∀ o ∈ obs, 0 < v o) :
    loglikeJitter (obs.map (fun o => some (r o))) (obs.map v) = .fin ((obs.map (fun o => log (gaussianPDFReal 0 (v o).toNNReal (r o)))).sum) := by
  unfold loglikeJitter
  have h1 : ¬ ((∃ x ∈ obs.map v, x = 0) ∨ none ∈ obs.map (fun o => some (r o))) := by
    rintro (⟨x, hx, rfl⟩ | hx)
    · obtain ⟨o, ho, h⟩ := List.mem_map.1 hx
      exact absurd h (hv o ho).ne'
    · simp at hx
  rw [if_neg h1]
  simp only [zipWith_map_same, List.map_map, Function.comp_def, Option.getD_some]
  congr 1
  rw [← list_sum_map_mul, ← list_sum_map_sub]
  congr 1
  apply List.map_congr_left
  intro o ho
  have := hv o ho
  rw [gaussianPDFReal, log_mul (by positivity) (exp_pos _).ne', log_exp, log_inv, Real.coe_toNNReal _ this.le]
  field_simp
  ring

theorem loglikeJitter_nan (res : List (Option ℝ)) (var : List ℝ) (h : (∃ v ∈ var, v = 0) ∨ none ∈ res) : loglikeJitter res var = .nan := by
  unfold loglikeJitter; rw [if_pos h]

theorem exp_sum_log {α : Type} (l : List α) (f : α → ℝ) (hf : ∀ a ∈ l, 0 < f a) : exp ((l.map (fun a => log (f a))).sum) = (l.map f).prod := by
  induction l with
  | nil => simp
  | cons a t ih =>
    simp only [List.map_cons, List.sum_cons, List.prod_cons, exp_add]
    rw [exp_log (hf a (by simp)), ih (fun b hb => hf b (List.mem_cons_of_mem _ hb))]

/-- Completing the square. -/
theorem square_completed {α : Type} (l : List α) (a v : α → ℝ) (x z : ℝ)
    (hz : z * (l.map (fun o => 1 / v o)).sum = (l.map (fun o => a o / v o)).sum) :
    (l.map (fun o => (a o - x) ^ 2 / v o)).sum = (l.map (fun o => (a o - z) ^ 2 / v o)).sum + (x - z) ^ 2 * (l.map (fun o => 1 / v o)).sum := by
  have expand : ∀ y : ℝ, (l.map (fun o => (a o - y) ^ 2 / v o)).sum
      = (l.map (fun o => a o ^ 2 / v o)).sum - 2 * y * (l.map (fun o => a o / v o)).sum + y ^ 2 * (l.map (fun o => 1 / v o)).sum := by
    intro y
    clear hz
    induction l with
    | nil => simp
    | cons o t ih => simp only [List.map_cons, List.sum_cons, ih]; ring
  rw [expand x, expand z, ← hz]
  ring

theorem prod_gaussian {α : Type} (l : List α) (a v : α → ℝ) (hv : ∀ o ∈ l, 0 < v o) (x : ℝ) :
    (l.map (fun o => gaussianPDFReal 0 (v o).toNNReal (a o - x))).prod
      = (l.map (fun o => (√(2 * π * v o))⁻¹)).prod * exp (-(l.map (fun o => (a o - x) ^ 2 / v o)).sum / 2) := by
  induction l with
  | nil => simp
  | cons o t ih =>
    have ho := hv o (by simp)
    simp only [List.map_cons, List.prod_cons, List.sum_cons]
    rw [ih (fun b hb => hv b (List.mem_cons_of_mem _ hb)), gaussianPDFReal, Real.coe_toNNReal _ ho.le,
      show -((a o - x) ^ 2 / v o + (t.map (fun o => (a o - x) ^ 2 / v o)).sum) / 2
        = -(a o - x - 0) ^ 2 / (2 * v o) + -(t.map (fun o => (a o - x) ^ 2 / v o)).sum / 2 by field_simp; ring, exp_add]
    ring

theorem sum_inv_pos {α : Type} (l : List α) (v : α → ℝ) (hv : ∀ o ∈ l, 0 < v o) (hl : l ≠ []) : 0 < (l.map (fun o => 1 / v o)).sum := by
  induction l with
  | nil => exact absurd rfl hl
  | cons o t ih =>
    have ho := hv o (by simp)
    simp only [List.map_cons, List.sum_cons]
    by_cases ht : t = []
    · subst ht; simpa using ho
    · have := ih (fun b hb => hv b (List.mem_cons_of_mem _ hb)) ht
      positivity

theorem gaussian_shift_integral (b z : ℝ) : ∫ x : ℝ, exp (-((x - z) ^ 2 * b) / 2) = √(2 * π * (1 / b)) := by
  have h1 : (fun x : ℝ => exp (-((x - z) ^ 2 * b) / 2)) = fun x => (fun y => exp (-(b / 2) * y ^ 2)) (x - z) := by
    funext x; simp only; congr 1; ring
  rw [h1, MeasureTheory.integral_sub_right_eq_self (fun y => exp (-(b / 2) * y ^ 2)), integral_gaussian]
  congr 1
  ring

end Radvel
