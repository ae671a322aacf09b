import Verif.Lemmas.RoundedPost
import Verif.Model.Prior

/-!
# The log-posterior in double precision (C182)
-/

namespace Radvel
open Real ProbabilityTheory

variable {O : PostOps}

theorem prior_none (p : RPrior) (x : ℝ) : O.prior p x = none ↔ ¬p.Allows x := by
  cases p with
  | gaussian mu sigma => simp [PostOps.prior, RPrior.Allows]
  | bounds lo hi =>
    simp only [PostOps.prior, RPrior.Allows]
    split
    · next h => simp only [true_iff]; rintro ⟨h1, h2⟩; rcases h with h | h <;> linarith
    · next h => push Not at h; simpa using h
  | jeffreys lo hi =>
    simp only [PostOps.prior, RPrior.Allows]
    split
    · next h => simp only [true_iff]; rintro ⟨h1, h2⟩; rcases h with h | h <;> linarith
    · next h => push Not at h; simpa using h
  | modJeffreys lo hi knee =>
    simp only [PostOps.prior, RPrior.Allows]
    split
    · next h => simp only [true_iff]; rintro ⟨h1, h2⟩; rcases h with h | h <;> linarith
    · next h => push Not at h; simpa using h.symm

theorem priors_aux (l : List (RPrior × ℝ)) (a : ℝ) : (l.foldl (fun acc p => acc.bind fun a => (O.prior p.1 p.2).map (O.add a)) (some a) = none ↔ ∃ p ∈ l, ¬p.1.Allows p.2) ∧
    ((∀ p ∈ l, p.1.Allows p.2) → ∃ g : RPrior × ℝ → ℝ, (∀ p ∈ l, O.prior p.1 p.2 = some (g p)) ∧ l.foldl (fun acc p => acc.bind fun a => (O.prior p.1 p.2).map (O.add a)) (some a) = some ((l.map g).foldl O.add a)) := by
  induction l generalizing a with
  | nil => exact ⟨by simp, fun _ => ⟨fun _ => 0, by simp, rfl⟩⟩
  | cons p l ih =>
    simp only [List.foldl_cons, Option.bind_some]
    cases hp : O.prior p.1 p.2 with
    | none =>
      have hn := (prior_none (O := O) p.1 p.2).1 hp
      have hno : ∀ l : List (RPrior × ℝ), l.foldl (fun acc p => acc.bind fun a => (O.prior p.1 p.2).map (O.add a)) none = none := by
        intro l
        induction l with
        | nil => rfl
        | cons q l ih => exact ih
      refine ⟨?_, fun h => absurd (h p (List.mem_cons_self ..)) hn⟩
      rw [Option.map_none, hno]
      exact ⟨fun _ => ⟨p, List.mem_cons_self .., hn⟩, fun _ => rfl⟩
    | some v =>
      have hy : p.1.Allows p.2 := by
        by_contra h
        rw [(prior_none (O := O) p.1 p.2).2 h] at hp
        cases hp
      obtain ⟨i1, i2⟩ := ih (O.add a v)
      refine ⟨?_, ?_⟩
      · rw [Option.map_some, i1]
        constructor
        · rintro ⟨q, hq, h⟩
          exact ⟨q, List.mem_cons_of_mem _ hq, h⟩
        · rintro ⟨q, hq, h⟩
          rcases List.mem_cons.1 hq with rfl | hq
          · exact absurd hy h
          · exact ⟨q, hq, h⟩
      · intro h
        obtain ⟨_, g2, _⟩ := i2 (fun q hq => h q (List.mem_cons_of_mem _ hq))
        have hall : ∀ q ∈ p :: l, O.prior q.1 q.2 = some ((O.prior q.1 q.2).getD 0) := by
          intro q hq
          cases hq' : O.prior q.1 q.2 with
          | none => exact absurd (h q hq) ((prior_none (O := O) q.1 q.2).1 hq')
          | some w => rfl
        refine ⟨fun q => (O.prior q.1 q.2).getD 0, hall, ?_⟩
        obtain ⟨g, g1, g3⟩ := i2 (fun q hq => h q (List.mem_cons_of_mem _ hq))
        rw [Option.map_some, g3, List.map_cons, List.foldl_cons, hp, Option.getD_some]
        congr 2
        apply List.map_congr_left
        intro q hq
        rw [g1 q hq, Option.getD_some]

/-- C182, rejection: whatever the rounding, the posterior is `-inf` exactly if a bound is violated. -/
theorem C182_rejected (l : List (RPrior × ℝ)) (likes : List ℝ) : O.posterior l likes = none ↔ ∃ p ∈ l, ¬p.1.Allows p.2 := by
  unfold PostOps.posterior PostOps.priors
  rw [Option.map_eq_none_iff]
  exact (priors_aux l 0).1

theorem size_ge (p : RPrior) (x : ℝ) (hw : p.Wide) (ha : p.Allows x) : |p.logDensity x| ≤ p.size x := by
  cases p with
  | gaussian mu sigma =>
    have hs : sigma ≠ 0 := by
      rintro rfl
      simp only [RPrior.Wide] at hw
      norm_num at hw
    rw [gaussian_log hs]
    simp only [RPrior.size]
    rw [show 2 * π * sigma ^ 2 = sigma ^ 2 * 2 * π by ring]
    refine (abs_sub _ _).trans ?_
    rw [abs_mul, abs_mul, abs_of_nonneg (sq_nonneg ((x - mu) / sigma))]
    norm_num [abs_of_neg, abs_of_pos]
    linarith
  | bounds lo hi =>
    simp only [RPrior.logDensity, RPrior.size]
    rw [one_div, log_inv, abs_neg]
  | jeffreys lo hi =>
    obtain ⟨w1, w2, _⟩ := hw
    simp only [RPrior.logDensity, RPrior.size]
    have h1 : 0 < log (hi / lo) := log_pos (by rw [lt_div_iff₀ w1]; linarith)
    rw [one_div, log_inv, abs_neg, log_mul (lt_of_lt_of_le w1 ha.1).ne' h1.ne']
    linarith [abs_add_le (log x) (log (log (hi / lo)))]
  | modJeffreys lo hi knee =>
    obtain ⟨w1, w2, _⟩ := hw
    simp only [RPrior.logDensity, RPrior.size]
    have h1 : 0 < log ((hi - knee) / (lo - knee)) := log_pos (by rw [lt_div_iff₀ w1]; linarith)
    have h2 : 0 < x - knee := by linarith [ha.1]
    rw [one_div, log_inv, abs_neg, log_mul h2.ne' h1.ne']
    linarith [abs_add_le (log (x - knee)) (log (log ((hi - knee) / (lo - knee))))]

/-- C182: if no bound is violated, the computed log-posterior is the sum of the logarithms of the densities of the priors and of the exact log-likelihoods, up to the errors of the computed
likelihoods (`C174_logprob`), 3e-15 of the size of every prior, 2e-15 for every prior, and 1.2e-16 of everything for every term. `likes` are, for every instrument, computed value, exact value and a bound for the error. -/
theorem C182_posterior (hO : IsPostDouble O) (l : List (RPrior × ℝ)) (likes : List (ℝ × ℝ × ℝ)) (hl : l.length + likes.length ≤ 10000) (hw : ∀ p ∈ l, p.1.Wide) (ha : ∀ p ∈ l, p.1.Allows p.2)
    (hL : ∀ x ∈ likes, |x.1 - x.2.1| ≤ x.2.2) :
    ∃ v, O.posterior l (likes.map Prod.fst) = some v ∧
      |v - ((l.map fun p => p.1.logDensity p.2).sum + (likes.map fun x => x.2.1).sum)| ≤
        1.0001 * ((l.map fun p => 3e-15 * p.1.size p.2 + 2e-15).sum + (likes.map fun x => x.2.2).sum) +
          1.2e-16 * (l.length + likes.length + 1) * ((l.map fun p => p.1.size p.2).sum + (likes.map fun x => |x.2.1|).sum) := by
  obtain ⟨g, g1, g2⟩ := (priors_aux (O := O) l 0).2 ha
  refine ⟨O.add ((l.map g).foldl O.add 0) ((likes.map Prod.fst).foldl O.add 0), by unfold PostOps.posterior PostOps.priors; rw [g2]; rfl, ?_⟩
  have s1 := isSum_foldl O.toOps [] (l.map g) 0 0 .nil
  have s2 := isSum_foldl O.toOps [] (likes.map Prod.fst) 0 0 .nil
  have s3 := s1.add s2
  simp only [List.nil_append, Nat.zero_add, List.length_map] at s3
  -- all terms in one list
  let G : (RPrior × ℝ) ⊕ (ℝ × ℝ × ℝ) → ℝ := Sum.elim g Prod.fst
  let F : (RPrior × ℝ) ⊕ (ℝ × ℝ × ℝ) → ℝ := Sum.elim (fun p => p.1.logDensity p.2) (fun x => x.2.1)
  let M : (RPrior × ℝ) ⊕ (ℝ × ℝ × ℝ) → ℝ := Sum.elim (fun p => p.1.size p.2) (fun x => |x.2.1|)
  let D : (RPrior × ℝ) ⊕ (ℝ × ℝ × ℝ) → ℝ := Sum.elim (fun p => 3e-15 * p.1.size p.2 + 2e-15) (fun x => x.2.2)
  have hm : ∀ H : (RPrior × ℝ) ⊕ (ℝ × ℝ × ℝ) → ℝ, (l.map Sum.inl ++ likes.map Sum.inr).map H = l.map (fun p => H (.inl p)) ++ likes.map (fun x => H (.inr x)) := by
    intro H
    rw [List.map_append, List.map_map, List.map_map]
    rfl
  have h := sum_round hO.like.ops (l.map Sum.inl ++ likes.map Sum.inr) G F M D (by
    intro x hx
    rcases List.mem_append.1 hx with hx | hx
    · obtain ⟨p, hp, rfl⟩ := List.mem_map.1 hx
      refine ⟨?_, size_ge p.1 p.2 (hw p hp) (ha p hp)⟩
      have hg := g1 p hp
      have hpw := hw p hp
      have hpa := ha p hp
      show |g p - p.1.logDensity p.2| ≤ 3e-15 * p.1.size p.2 + 2e-15
      generalize g p = gp at *
      obtain ⟨q, y⟩ := p
      cases q with
      | gaussian mu sigma =>
        cases hg
        exact gaussian_round hO mu sigma y hpw
      | bounds lo hi =>
        simp only [PostOps.prior] at hg
        rw [if_neg (by rintro (h | h) <;> linarith [hpa.1, hpa.2])] at hg
        cases hg
        exact bounds_round hO lo hi y (hpa.1.trans hpa.2)
      | jeffreys lo hi =>
        simp only [PostOps.prior] at hg
        rw [if_neg (by rintro (h | h) <;> linarith [hpa.1, hpa.2])] at hg
        cases hg
        exact jeffreys_round hO lo hi y hpw hpa
      | modJeffreys lo hi knee =>
        simp only [PostOps.prior] at hg
        rw [if_neg (by rintro (h | h) <;> linarith [hpa.1, hpa.2])] at hg
        cases hg
        exact modJeffreys_round hO lo hi knee y hpw hpa
    · obtain ⟨y, hy, rfl⟩ := List.mem_map.1 hx
      exact ⟨hL y hy, le_refl _⟩) (n := max l.length likes.length + 1) (by omega) (by rw [hm]; exact s3)
  simp only [hm, List.sum_append] at h
  refine h.trans (add_le_add (le_refl _) ?_)
  refine mul_le_mul_of_nonneg_right ?_ ?_
  · have : ((max l.length likes.length + 1 : ℕ) : ℝ) ≤ l.length + likes.length + 1 := by
      exact_mod_cast (by omega : max l.length likes.length + 1 ≤ l.length + likes.length + 1)
    have h0 : (0 : ℝ) ≤ l.length + likes.length + 1 := by positivity
    generalize ((max l.length likes.length + 1 : ℕ) : ℝ) = a at *
    norm_num
    linarith
  · refine add_nonneg (List.sum_nonneg ?_) (List.sum_nonneg ?_)
    · intro y hy
      obtain ⟨p, hp, rfl⟩ := List.mem_map.1 hy
      exact (abs_nonneg _).trans (size_ge p.1 p.2 (hw p hp) (ha p hp))
    · intro y hy
      obtain ⟨x, _, rfl⟩ := List.mem_map.1 hy
      exact abs_nonneg _

/-- The data of one instrument: offset, jitter, and measurements with exact velocities. -/
structure RInst where
  gamma : ℝ
  jit : ℝ
  pts : List Truth

/-- The error of the computed log-likelihood of an instrument, from C174. -/
noncomputable def RInst.err (I : RInst) : ℝ :=
  (I.pts.map fun x => x.resErr I.gamma * (|x.res I.gamma| + x.resErr I.gamma) / x.var I.jit).sum +
    (1.1e-15 + 1.2e-16 * I.pts.length) * (I.pts.map fun x => (|x.res I.gamma| + x.resErr I.gamma) ^ 2 / x.var I.jit / 2 + |log √(2 * π * x.var I.jit)|).sum + 2e-15 * I.pts.length + 2 * tiny

/-- C182 from the data: the posterior of several instruments is the sum of the logarithms of the densities of priors and measurements, up to rounding. -/
theorem C182_data (hO : IsPostDouble O) (l : List (RPrior × ℝ)) (insts : List RInst) (hl : l.length + insts.length ≤ 10000) (hw : ∀ p ∈ l, p.1.Wide) (ha : ∀ p ∈ l, p.1.Allows p.2)
    (hn : ∀ I ∈ insts, I.pts.length ≤ 1000000) (hs : ∀ I ∈ insts, ∀ x ∈ I.pts, 1e-50 ≤ |x.point.err|) (hv : ∀ I ∈ insts, ∀ x ∈ I.pts, |x.point.mod - x.vel| ≤ x.eps) :
    ∃ v, O.posterior l (insts.map fun I => O.logprob I.gamma I.jit (I.pts.map Truth.point)) = some v ∧
      |v - ((l.map fun p => p.1.logDensity p.2).sum + (insts.map fun I => (I.pts.map fun x => x.logDensity I.gamma I.jit).sum).sum)| ≤
        1.0001 * ((l.map fun p => 3e-15 * p.1.size p.2 + 2e-15).sum + (insts.map RInst.err).sum) +
          1.2e-16 * (l.length + insts.length + 1) * ((l.map fun p => p.1.size p.2).sum + (insts.map fun I => |(I.pts.map fun x => x.logDensity I.gamma I.jit).sum|).sum) := by
  have h := C182_posterior hO l (insts.map fun I => (O.logprob I.gamma I.jit (I.pts.map Truth.point), (I.pts.map fun x => x.logDensity I.gamma I.jit).sum, I.err)) (by simpa using hl) hw ha (by
    intro y hy
    obtain ⟨I, hI, rfl⟩ := List.mem_map.1 hy
    exact C174_logprob hO.like I.gamma I.jit I.pts (hn I hI) (hs I hI) (hv I hI))
  simp only [List.map_map, List.length_map] at h
  exact h

/-- Arithmetic without rounding. -/
noncomputable def exactPost : PostOps := ⟨exactLike, fun a => a ^ 2⟩

/-- The priors of the other theorems, /repo/radvel/prior.py 39-41, 217-226, 335-340, 391-396. -/
noncomputable def RPrior.value : RPrior → ℝ → Fl
  | .gaussian mu sigma, x => gaussianLogpdf mu sigma x
  | .bounds lo hi, x => hardBoundsLogpdf (.fin lo) (.fin hi) x
  | .jeffreys lo hi, x => jeffreysLogpdf lo hi x
  | .modJeffreys lo hi knee, x => modJeffreysLogpdf lo hi knee x

theorem logUniform_exact {lo hi x : ℝ} (hlo : 0 < lo) (h : lo < hi) (hx : 0 < x) : Fl.log (1 / log (hi / lo)) + (Fl.log x).minus = .fin (exactPost.logUniform lo hi x) := by
  have h1 : 0 < log (hi / lo) := log_pos (by rwa [lt_div_iff₀ hlo, one_mul])
  have h2 : 0 < 1 / log (hi / lo) := one_div_pos.2 h1
  rw [Fl.log, if_pos h2, Fl.log, if_pos hx]
  rfl

/-- C182: without rounding these are the priors of the other theorems; `none` is `-inf`. -/
theorem C182_exact (p : RPrior) (hw : p.Wide) (x : ℝ) : p.value x = match exactPost.prior p x with
    | none => .neg
    | some v => .fin v := by
  cases p with
  | gaussian mu sigma =>
    have hs : sigma ≠ 0 := by
      rintro rfl
      simp only [RPrior.Wide] at hw
      norm_num at hw
    simp only [RPrior.value, PostOps.prior]
    unfold gaussianLogpdf
    rw [if_neg hs]
    rfl
  | bounds lo hi =>
    simp only [RPrior.value, PostOps.prior]
    unfold hardBoundsLogpdf
    by_cases h : x ≤ lo ∨ x ≥ hi
    · rw [if_pos (by simpa [Fl.ge, Fl.le] using h)]
      simp [h]
    · rw [if_neg (by simpa [Fl.ge, Fl.le] using h)]
      simp only [h, if_false]
      push Not at h
      have : 0 < hi - lo := by linarith [h.1, h.2]
      simp [Fl.log, this, Fl.minus]
      rfl
  | jeffreys lo hi =>
    obtain ⟨w1, w2, _⟩ := hw
    simp only [RPrior.value, PostOps.prior]
    unfold jeffreysLogpdf
    by_cases h : x < lo ∨ x > hi
    · simp [h]
    · simp only [h, if_false]
      push Not at h
      exact logUniform_exact w1 (by linarith) (by linarith [h.1])
  | modJeffreys lo hi knee =>
    obtain ⟨w1, w2, _⟩ := hw
    simp only [RPrior.value, PostOps.prior]
    unfold modJeffreysLogpdf
    by_cases h : x > hi ∨ x < lo
    · simp [h]
    · simp only [h, if_false]
      push Not at h
      exact logUniform_exact w1 (by linarith) (by linarith [h.2])

/-- Rounding after every operation. -/
noncomputable def gridPost : PostOps := ⟨gridLike, fun a => gridRound (a ^ 2)⟩

theorem gridPost_double : IsPostDouble gridPost := by
  refine ⟨gridLike_double, fun a => ?_⟩
  refine (gridRound_err _).trans ?_
  rw [abs_of_nonneg (sq_nonneg a)]
  have := mul_le_mul_of_nonneg_right (show unitRound ≤ libErr by unfold libErr; linarith [unit_pos]) (sq_nonneg a)
  linarith [tiny_pos]

/-- The hypotheses of C182 hold for four priors and two instruments, with an arithmetic that rounds; outside the bounds the posterior is `-inf`. -/
example : (∃ v, gridPost.posterior [(.gaussian 3 0.5, 3.2), (.bounds 0 1, 0.3), (.jeffreys 1 100, 7), (.modJeffreys 0 50 (-1), 0)] ([⟨1, 0.5, [⟨⟨3, 0.5, 1⟩, 1.001, 0.01⟩]⟩, ⟨0, 2, [⟨⟨-2, 0.25, 1⟩, 1, 0⟩]⟩].map fun I : RInst => gridPost.logprob I.gamma I.jit (I.pts.map Truth.point)) = some v) ∧
    gridPost.posterior [(.gaussian 3 0.5, 3.2), (.bounds 0 1, 1)] [7] = none := by
  constructor
  · obtain ⟨v, hv, _⟩ := C182_data gridPost_double [(.gaussian 3 0.5, 3.2), (.bounds 0 1, 0.3), (.jeffreys 1 100, 7), (.modJeffreys 0 50 (-1), 0)] [⟨1, 0.5, [⟨⟨3, 0.5, 1⟩, 1.001, 0.01⟩]⟩, ⟨0, 2, [⟨⟨-2, 0.25, 1⟩, 1, 0⟩]⟩] (by norm_num)
      (by
        intro p hp
        simp only [List.mem_cons, List.not_mem_nil, or_false] at hp
        rcases hp with rfl | rfl | rfl | rfl
        · show (1e-50 : ℝ) ≤ |0.5|
          norm_num [le_abs]
        · trivial
        · exact ⟨by norm_num, by norm_num, by norm_num⟩
        · exact ⟨by norm_num, by norm_num, by norm_num⟩)
      (by
        intro p hp
        simp only [List.mem_cons, List.not_mem_nil, or_false] at hp
        rcases hp with rfl | rfl | rfl | rfl
        · trivial
        all_goals exact ⟨by norm_num, by norm_num⟩)
      (by simp)
      (by
        intro I hI
        simp only [List.mem_cons, List.not_mem_nil, or_false] at hI
        rcases hI with rfl | rfl <;> norm_num [le_abs])
      (by
        intro I hI
        simp only [List.mem_cons, List.not_mem_nil, or_false] at hI
        rcases hI with rfl | rfl <;> norm_num [abs_le])
    exact ⟨v, hv⟩
  · rw [C182_rejected]
    exact ⟨(.bounds 0 1, 1), by simp, fun h => lt_irrefl _ h.2⟩

end Radvel
