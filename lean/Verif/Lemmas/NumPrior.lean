import Verif.Model.NumPrior
import Mathlib.Tactic.Linarith
import Mathlib.Tactic.FieldSimp
import Mathlib.Tactic.Ring
import Mathlib.Tactic.Positivity

/-! # Interpolation and histograms -/

namespace Radvel
open Classical

/-- Both coordinates do not decrease. -/
def Rising : ℝ × ℝ → List (ℝ × ℝ) → Prop
  | _, [] => True
  | p, q :: t => p.1 ≤ q.1 ∧ p.2 ≤ q.2 ∧ Rising q t

/-- The last of the points. -/
def lastPt (p : ℝ × ℝ) : List (ℝ × ℝ) → ℝ × ℝ
  | [] => p
  | q :: t => lastPt q t

theorem Rising.last {p : ℝ × ℝ} {l : List (ℝ × ℝ)} (h : Rising p l) : p.2 ≤ (lastPt p l).2 := by
  induction l generalizing p with
  | nil => exact le_rfl
  | cons q t ih => exact h.2.1.trans (ih h.2.2)

theorem lerp_bounds {u : ℝ} {p q : ℝ × ℝ} (h1 : p.1 ≤ u) (h2 : u < q.1) (h3 : p.2 ≤ q.2) :
    p.2 ≤ (q.2 - p.2) / (q.1 - p.1) * (u - p.1) + p.2 ∧ (q.2 - p.2) / (q.1 - p.1) * (u - p.1) + p.2 ≤ q.2 := by
  have hd : 0 < q.1 - p.1 := by linarith
  have h : 0 ≤ (q.2 - p.2) / (q.1 - p.1) := div_nonneg (by linarith) hd.le
  constructor
  · nlinarith [mul_nonneg h (sub_nonneg.2 h1)]
  · have h4 : (q.2 - p.2) / (q.1 - p.1) * (u - p.1) ≤ (q.2 - p.2) / (q.1 - p.1) * (q.1 - p.1) := by
      apply mul_le_mul_of_nonneg_left _ h
      linarith
    rw [div_mul_cancel₀ _ hd.ne'] at h4
    linarith

theorem piece_bounds {u : ℝ} {p q : ℝ × ℝ} (h1 : p.1 ≤ u) (h2 : u < q.1) (h3 : p.2 ≤ q.2) :
    p.2 ≤ (if p.1 = u then p.2 else (q.2 - p.2) / (q.1 - p.1) * (u - p.1) + p.2) ∧ (if p.1 = u then p.2 else (q.2 - p.2) / (q.1 - p.1) * (u - p.1) + p.2) ≤ q.2 := by
  split
  · exact ⟨le_rfl, h3⟩
  · exact lerp_bounds h1 h2 h3

/-- Where the result of the interpolation lies. -/
theorem interpFrom_spec {u : ℝ} {p : ℝ × ℝ} {l : List (ℝ × ℝ)} (hr : Rising p l) (h : p.1 ≤ u) :
    (∃ (i : Nat) (a b : ℝ × ℝ), (p :: l)[i]? = some a ∧ (p :: l)[i + 1]? = some b ∧ a.1 ≤ u ∧ u < b.1 ∧ a.2 ≤ interpFrom u p l ∧ interpFrom u p l ≤ b.2) ∨
    ((lastPt p l).1 ≤ u ∧ interpFrom u p l = (lastPt p l).2) := by
  induction l generalizing p with
  | nil => exact .inr ⟨h, rfl⟩
  | cons q t ih =>
    unfold interpFrom lastPt
    by_cases hq : u < q.1
    · rw [if_pos hq]
      exact .inl ⟨0, p, q, rfl, rfl, h, hq, piece_bounds h hq hr.2.1⟩
    · rw [if_neg hq]
      rcases ih hr.2.2 (not_lt.1 hq) with ⟨i, a, b, h1, h2, h3⟩ | h1
      · exact .inl ⟨i + 1, a, b, by simpa using h1, by simpa using h2, h3⟩
      · exact .inr h1

theorem interpFrom_ge {u : ℝ} {p : ℝ × ℝ} {l : List (ℝ × ℝ)} (hr : Rising p l) (h : p.1 ≤ u) : p.2 ≤ interpFrom u p l := by
  induction l generalizing p with
  | nil => exact le_rfl
  | cons q t ih =>
    unfold interpFrom
    by_cases hq : u < q.1
    · rw [if_pos hq]; exact (piece_bounds h hq hr.2.1).1
    · rw [if_neg hq]; exact hr.2.1.trans (ih hr.2.2 (not_lt.1 hq))

theorem interpFrom_le {u : ℝ} {p : ℝ × ℝ} {l : List (ℝ × ℝ)} (hr : Rising p l) (h : p.1 ≤ u) : interpFrom u p l ≤ (lastPt p l).2 := by
  induction l generalizing p with
  | nil => exact le_rfl
  | cons q t ih =>
    unfold interpFrom lastPt
    by_cases hq : u < q.1
    · rw [if_pos hq]; exact (piece_bounds h hq hr.2.1).2.trans hr.2.2.last
    · rw [if_neg hq]; exact ih hr.2.2 (not_lt.1 hq)

theorem interpFrom_mono {u u' : ℝ} {p : ℝ × ℝ} {l : List (ℝ × ℝ)} (hr : Rising p l) (h : p.1 ≤ u) (huu : u ≤ u') : interpFrom u p l ≤ interpFrom u' p l := by
  induction l generalizing p with
  | nil => exact le_rfl
  | cons q t ih =>
    unfold interpFrom
    by_cases hq : u < q.1
    · rw [if_pos hq]
      by_cases hq' : u' < q.1
      · rw [if_pos hq']
        by_cases hp' : p.1 = u'
        · have : p.1 = u := le_antisymm h (by linarith)
          rw [if_pos hp', if_pos this]
        · by_cases hp : p.1 = u
          · rw [if_pos hp, if_neg hp']
            exact (lerp_bounds (h.trans huu) hq' hr.2.1).1
          · rw [if_neg hp, if_neg hp']
            have hd : 0 < q.1 - p.1 := by linarith
            have h0 : 0 ≤ (q.2 - p.2) / (q.1 - p.1) := div_nonneg (by linarith [hr.2.1]) hd.le
            nlinarith [mul_le_mul_of_nonneg_left (sub_le_sub_right huu p.1) h0]
      · rw [if_neg hq']
        exact (piece_bounds h hq hr.2.1).2.trans (interpFrom_ge hr.2.2 (not_lt.1 hq'))
    · rw [if_neg hq, if_neg (by linarith)]
      exact ih hr.2.2 (not_lt.1 hq)

/-- Rising sequences given by functions. -/
theorem rising_map (f : Nat → ℝ × ℝ) (k n : Nat) (h : ∀ j, k ≤ j → j + 1 < k + (n + 1) → (f j).1 ≤ (f (j + 1)).1 ∧ (f j).2 ≤ (f (j + 1)).2) :
    Rising (f k) ((List.range' (k + 1) n).map f) := by
  induction n generalizing k with
  | zero => trivial
  | succ n ih =>
    rw [List.range'_succ, List.map_cons]
    have := h k le_rfl (by omega)
    refine ⟨this.1, this.2, ih (k + 1) ?_⟩
    intro j h1 h2
    exact h j (by omega) (by omega)

theorem lastPt_map (f : Nat → ℝ × ℝ) (k n : Nat) : lastPt (f k) ((List.range' (k + 1) n).map f) = f (k + n) := by
  induction n generalizing k with
  | zero => rfl
  | succ n ih =>
    rw [List.range'_succ, List.map_cons]
    show lastPt (f (k + 1)) _ = _
    rw [ih (k + 1)]
    congr 1
    omega

/-! ### histogram -/

theorem edge_mono {lo hi : ℝ} {nb : Nat} (h : lo ≤ hi) {i j : Nat} (hij : i ≤ j) : binEdge lo hi nb i ≤ binEdge lo hi nb j := by
  unfold binEdge
  have h0 : 0 ≤ (hi - lo) / (nb : ℝ) := div_nonneg (by linarith) (Nat.cast_nonneg _)
  have : (i : ℝ) ≤ j := by exact_mod_cast hij
  nlinarith [mul_le_mul_of_nonneg_right this h0]

theorem edge_zero (lo hi : ℝ) (nb : Nat) : binEdge lo hi nb 0 = lo := by simp [binEdge]

theorem edge_last (lo hi : ℝ) {nb : Nat} (h : nb ≠ 0) : binEdge lo hi nb nb = hi := by
  unfold binEdge
  have : (nb : ℝ) ≠ 0 := by exact_mod_cast h
  field_simp
  ring

theorem edge_succ (lo hi : ℝ) (nb i : Nat) : binEdge lo hi nb (i + 1) = binEdge lo hi nb i + (hi - lo) / nb := by
  unfold binEdge
  push_cast
  ring

/-- The number of values counted in the first bins. -/
noncomputable def firstBins (lo hi : ℝ) (nb : Nat) (values : List ℝ) (j : Nat) : Nat := ((List.range j).map fun i => values.countP (inHistBin lo hi nb i)).sum

theorem firstBins_succ (lo hi : ℝ) (nb : Nat) (values : List ℝ) (j : Nat) :
    firstBins lo hi nb values (j + 1) = firstBins lo hi nb values j + values.countP (inHistBin lo hi nb j) := by
  unfold firstBins
  rw [List.range_succ, List.map_append, List.sum_append]
  simp

theorem countP_split (p q r : ℝ → Bool) (l : List ℝ) (h : ∀ v ∈ l, (p v = true ↔ q v = true ∨ r v = true) ∧ ¬ (q v = true ∧ r v = true)) : l.countP p = l.countP q + l.countP r := by
  induction l with
  | nil => rfl
  | cons v t ih =>
    have h1 := h v (by simp)
    have h2 := ih fun w hw => h w (by simp [hw])
    rw [List.countP_cons, List.countP_cons, List.countP_cons, h2]
    cases hp : p v <;> cases hq : q v <;> cases hr : r v <;> simp_all <;> omega

/-- The first `j` bins, if not all, hold the values below edge `j`. -/
theorem firstBins_eq {lo hi : ℝ} {nb : Nat} (hlh : lo ≤ hi) {values : List ℝ} (hv : ∀ v ∈ values, lo ≤ v) {j : Nat} (hj : j < nb) :
    firstBins lo hi nb values j = values.countP fun v => decide (v < binEdge lo hi nb j) := by
  induction j with
  | zero =>
    rw [edge_zero]
    simp only [firstBins, List.range_zero, List.map_nil, List.sum_nil]
    symm
    rw [List.countP_eq_zero]
    intro v hm
    simpa using hv v hm
  | succ j ih =>
    rw [firstBins_succ, ih (by omega)]
    symm
    apply countP_split
    intro v hm
    have he := edge_mono hlh (nb := nb) (show j ≤ j + 1 by omega)
    simp only [inHistBin, decide_eq_true_eq]
    constructor
    · constructor
      · intro h
        by_cases h' : v < binEdge lo hi nb j
        · exact .inl h'
        · exact .inr ⟨not_lt.1 h', .inl h⟩
      · rintro (h | ⟨_, h | ⟨h, _⟩⟩)
        · exact h.trans_le he
        · exact h
        · omega
    · rintro ⟨h1, h2, _⟩
      exact absurd h1 (not_lt.2 h2)

/-- All bins hold all values. -/
theorem firstBins_all {lo hi : ℝ} {nb : Nat} (hnb : nb ≠ 0) (hlh : lo ≤ hi) {values : List ℝ} (hv : ∀ v ∈ values, lo ≤ v ∧ v ≤ hi) :
    firstBins lo hi nb values nb = values.length := by
  obtain ⟨j, rfl⟩ : ∃ j, nb = j + 1 := ⟨nb - 1, by omega⟩
  rw [firstBins_succ, firstBins_eq hlh (fun v h => (hv v h).1) (by omega)]
  have : values.length = values.countP fun _ => true := by simp
  rw [this]
  symm
  apply countP_split
  intro v hm
  have hl := edge_last lo hi hnb
  simp only [inHistBin, decide_eq_true_eq, hl]
  constructor
  · constructor
    · intro _
      by_cases h' : v < binEdge lo hi (j + 1) j
      · exact .inl h'
      · exact .inr ⟨not_lt.1 h', .inr ⟨trivial, (hv v hm).2⟩⟩
    · intro _; trivial
  · rintro ⟨h1, h2, _⟩
    exact absurd h1 (not_lt.2 h2)

theorem least_le (v : ℝ) (vs : List ℝ) : ∀ w ∈ v :: vs, least v vs ≤ w := by
  induction vs generalizing v with
  | nil => intro w hw; simp at hw; simp [least, hw]
  | cons a t ih =>
    intro w hw
    have h := ih (min v a)
    show least (min v a) t ≤ w
    have h0 := h _ (List.mem_cons_self ..)
    rcases List.mem_cons.1 hw with rfl | hw
    · exact h0.trans (min_le_left _ _)
    · rcases List.mem_cons.1 hw with rfl | hw
      · exact h0.trans (min_le_right _ _)
      · exact h w (by simp [hw])

theorem least_mem (v : ℝ) (vs : List ℝ) : least v vs ∈ v :: vs := by
  induction vs generalizing v with
  | nil => simp [least]
  | cons a t ih =>
    show least (min v a) t ∈ _
    have := ih (min v a)
    rcases List.mem_cons.1 this with h | h
    · rw [h]
      rcases min_choice v a with h' | h' <;> rw [h'] <;> simp
    · simp [h]

theorem le_greatest (v : ℝ) (vs : List ℝ) : ∀ w ∈ v :: vs, w ≤ greatest v vs := by
  induction vs generalizing v with
  | nil => intro w hw; simp at hw; simp [greatest, hw]
  | cons a t ih =>
    intro w hw
    have h := ih (max v a)
    show w ≤ greatest (max v a) t
    have h0 := h _ (List.mem_cons_self ..)
    rcases List.mem_cons.1 hw with rfl | hw
    · exact (le_max_left _ _).trans h0
    · rcases List.mem_cons.1 hw with rfl | hw
      · exact (le_max_right _ _).trans h0
      · exact h w (by simp [hw])

theorem greatest_mem (v : ℝ) (vs : List ℝ) : greatest v vs ∈ v :: vs := by
  induction vs generalizing v with
  | nil => simp [greatest]
  | cons a t ih =>
    show greatest (max v a) t ∈ _
    have := ih (max v a)
    rcases List.mem_cons.1 this with h | h
    · rw [h]
      rcases max_choice v a with h' | h' <;> rw [h'] <;> simp
    · simp [h]

theorem cumsum_map (f : Nat → ℝ) (acc : ℝ) (k n : Nat) :
    cumsum acc ((List.range' k n).map f) = (List.range' k n).map fun j => acc + ((List.range' k (j + 1 - k)).map f).sum := by
  induction n generalizing k acc with
  | zero => rfl
  | succ n ih =>
    rw [List.range'_succ, List.map_cons, List.map_cons]
    show (acc + f k) :: cumsum (acc + f k) _ = _
    rw [ih]
    congr 1
    · simp
    · apply List.map_congr_left
      intro j hj
      obtain ⟨i, h1, rfl⟩ := List.mem_range'.1 hj
      have : k + 1 + 1 * i + 1 - k = (k + 1 + 1 * i + 1 - (k + 1)) + 1 := by omega
      rw [this, List.range'_succ, List.map_cons, List.sum_cons]
      ring

/-- The points between which the transform interpolates. -/
noncomputable def pointOf (lo hi : ℝ) (nb : Nat) (values : List ℝ) (j : Nat) : ℝ × ℝ :=
  ((firstBins lo hi nb values (j + 1) : ℝ) / values.length, (binEdge lo hi nb j + binEdge lo hi nb (j + 1)) / 2)

theorem points_eq {lo hi : ℝ} {nb : Nat} (hnb : nb ≠ 0) (hlh : lo ≤ hi) {values : List ℝ} (hv : ∀ v ∈ values, lo ≤ v ∧ v ≤ hi) :
    (cumsum 0 ((histOf lo hi nb values).map fun c : Nat => (c : ℝ) / (histOf lo hi nb values).sum)).zip ((List.range nb).map fun j => (binEdge lo hi nb j + binEdge lo hi nb (j + 1)) / 2) =
      (List.range nb).map (pointOf lo hi nb values) := by
  have hs : (histOf lo hi nb values).sum = values.length := firstBins_all hnb hlh hv
  rw [hs]
  have h1 : (histOf lo hi nb values).map (fun c : Nat => (c : ℝ) / values.length) = (List.range' 0 nb).map fun j => (values.countP (inHistBin lo hi nb j) : ℝ) / values.length := by
    rw [histOf, List.map_map, List.range_eq_range']
    rfl
  rw [h1, cumsum_map, List.range_eq_range', List.zip_map']
  apply List.map_congr_left
  intro j _
  rw [pointOf, Prod.mk.injEq]
  refine ⟨?_, rfl⟩
  rw [zero_add, firstBins, List.range_eq_range']
  generalize List.range' 0 (j + 1 - 0) = l
  induction l with
  | nil => simp
  | cons a t ih =>
    rw [List.map_cons, List.map_cons, List.sum_cons, List.sum_cons, ih]
    push_cast
    rw [add_div]

end Radvel
