import Verif.Model.PlotScale
import Verif.Spec.PlotScale
import Verif.Lemmas.OrbitPlot

namespace Radvel
open Real

theorem mapM_id_some (l : List ℝ) : (l.map some).mapM (m := Option) id = some l := by
  induction l with
  | nil => rfl
  | cons a t ih => simp [List.mapM_cons, ih]

theorem npStd_some (l : List ℝ) (hne : l ≠ []) : npStd (l.map some) = some (scatterReal l) := by
  unfold npStd scatterReal rmsReal meanReal
  rw [mapM_id_some]
  cases l with
  | nil => exact absurd rfl hne
  | cons a t =>
    simp only [List.map_map, List.length_map]
    rfl

theorem setYlim_some (σ : ℝ) (l : List ℝ) (hne : l ≠ []) : setYlim false σ (l.map some) = .ok (some (-σ * scatterReal l, σ * scatterReal l)) := by
  unfold setYlim
  rw [npStd_some l hne]
  rfl

theorem sum_sq_dev (l : List ℝ) (c : ℝ) : (l.map (fun y => (y - c) ^ 2)).sum = (l.map (fun y => y ^ 2)).sum - 2 * c * l.sum + l.length * c ^ 2 := by
  induction l with
  | nil => simp
  | cons a t ih => simp only [List.map_cons, List.sum_cons, ih, List.length_cons]; push_cast; ring

theorem sum_sq_nonneg (l : List ℝ) : 0 ≤ (l.map (fun y => y ^ 2)).sum := List.sum_nonneg (by simp; intro a _; positivity)

theorem rmsReal_sq (l : List ℝ) : rmsReal l ^ 2 = (l.map (fun y => y ^ 2)).sum / l.length := by
  unfold rmsReal
  rw [Real.sq_sqrt]
  exact div_nonneg (sum_sq_nonneg l) (Nat.cast_nonneg _)

theorem scatter_sq (l : List ℝ) (hne : l ≠ []) : scatterReal l ^ 2 = rmsReal l ^ 2 - meanReal l ^ 2 := by
  unfold scatterReal
  rw [rmsReal_sq, rmsReal_sq, List.map_map, List.length_map]
  have := sum_sq_dev l (meanReal l)
  rw [show ((fun y : ℝ => y ^ 2) ∘ fun y => y - meanReal l) = fun y => (y - meanReal l) ^ 2 from rfl, this]
  have hl : (l.length : ℝ) ≠ 0 := by
    have := List.length_pos_of_ne_nil hne
    positivity
  unfold meanReal
  field_simp
  ring

theorem scatter_nonneg (l : List ℝ) : 0 ≤ scatterReal l := Real.sqrt_nonneg _

theorem rmsReal_nonneg (l : List ℝ) : 0 ≤ rmsReal l := Real.sqrt_nonneg _

theorem scatter_double (l : List ℝ) : scatterReal (l ++ l) = scatterReal l := by
  have hm : meanReal (l ++ l) = meanReal l := by
    unfold meanReal
    simp only [List.sum_append, List.length_append]
    push_cast
    rw [← two_mul, ← two_mul]
    exact mul_div_mul_left _ _ two_ne_zero
  unfold scatterReal rmsReal
  rw [hm]
  simp only [List.map_append, List.sum_append, List.length_append]
  push_cast
  rw [← two_mul, ← two_mul]
  congr 1
  exact mul_div_mul_left _ _ two_ne_zero

/-- Every value is within `√n` times the scatter of the mean. -/
theorem dev_le (l : List ℝ) (y : ℝ) (hy : y ∈ l) : (y - meanReal l) ^ 2 ≤ l.length * scatterReal l ^ 2 := by
  unfold scatterReal
  rw [rmsReal_sq, List.map_map, List.length_map]
  have hl : (0 : ℝ) < l.length := by
    have := List.length_pos_of_mem hy
    exact_mod_cast this
  rw [mul_div_cancel₀ _ hl.ne']
  apply List.single_le_sum (l := l.map ((fun y : ℝ => y ^ 2) ∘ fun y => y - meanReal l))
  · simp; intro a _; positivity
  · exact List.mem_map.2 ⟨y, hy, rfl⟩

/-- Chebyshev: not many values are far from zero. -/
theorem chebyshev (l : List ℝ) (c : ℝ) : ((l.filter (fun y => decide (c < |y|))).length : ℝ) * c ^ 2 ≤ (l.map (fun y => y ^ 2)).sum ∨ c < 0 := by
  by_cases hc : c < 0
  · exact .inr hc
  · left
    push Not at hc
    induction l with
    | nil => simp
    | cons a t ih =>
      simp only [List.filter_cons, List.map_cons, List.sum_cons]
      by_cases h : c < |a|
      · simp only [h, decide_true, if_true, List.length_cons]
        push_cast
        have : c ^ 2 ≤ a ^ 2 := by rw [← sq_abs a]; exact pow_le_pow_left₀ hc h.le 2
        linarith
      · simp only [h, decide_false, Bool.false_eq_true, if_false]
        have := sq_nonneg a
        linarith

theorem rmsValues_agree {mod : Curve} (hmod : mod.Orbital) {s : VState ℝ} (hs : Built s) (m : ℝ → Option ℝ) (hm : ∀ t, mod s t = .ok (m t))
    (Ls : List RVLike) (hL : ∀ L ∈ Ls, L.On s) (D : RVLike → Obs → ℝ) (hd : ∀ L ∈ Ls, L.decFun s = .ok (D L)) (hn : (Ls.map (fun L => telOf L.suffix)).Nodup) (s0 : VState ℝ) (h0 : AgreeOff s s0)
    (d : Dict (List Char) (Option ℝ)) :
    ∃ s' d', rmsValues mod Ls s0 d = .ok (s', d') ∧ (∀ L ∈ Ls, d'.get? (telOf L.suffix) = some (npStd (L.obs.map (fun o => (m o.t).map (fun x => o.y - offsetIn s m L - x - D L o))))) ∧
      (∀ k, k ∉ Ls.map (fun L => telOf L.suffix) → d'.get? k = d.get? k) := by
  induction Ls generalizing s0 d with
  | nil => exact ⟨s0, d, rfl, by simp, fun _ _ => rfl⟩
  | cons L Lt ih =>
    obtain ⟨s1, a1, a2, a3, a4⟩ := residuals_agree hmod hs (hL L (by simp)) h0 m hm (D L) (hd L (by simp))
    simp only [List.map_cons, List.nodup_cons] at hn
    obtain ⟨s2, d2, b1, b2, b3⟩ := ih (fun L h => hL L (List.mem_cons_of_mem _ h)) (fun L h => hd L (List.mem_cons_of_mem _ h)) hn.2 s1 a2
      (d.set (telOf L.suffix) (npStd (L.obs.map (fun o => (m o.t).map (fun x => o.y - offsetIn s m L - x - D L o)))))
    refine ⟨s2, d2, by simp only [rmsValues, a1, b1], ?_, ?_⟩
    · intro K hK
      rcases List.mem_cons.1 hK with rfl | hK
      · rw [b3 _ hn.1]
        exact Dict.get?_set_self _ _ _
      · exact b2 K hK
    · intro k hk
      simp only [List.map_cons, List.mem_cons, not_or] at hk
      rw [b3 k hk.2]
      exact Dict.get?_set_ne _ _ (Ne.symm hk.1)

end Radvel
