import Verif.Spec.Binning
import Mathlib.Data.List.Basic
import Mathlib.Data.List.TakeWhile
import Mathlib.Algebra.Order.BigOperators.Group.List

namespace Radvel
open Real

/-- Reference division of a list sorted by time. -/
noncomputable def groupsOf (b : ℝ) : List Pt → List (List Pt)
  | [] => []
  | p :: l => (p :: l.takeWhile (fun q => decide (q.t < p.t + b))) :: groupsOf b (l.dropWhile (fun q => decide (q.t < p.t + b)))
termination_by l => l.length
decreasing_by
  simp only [List.length_cons]
  exact Nat.lt_succ_of_le (List.dropWhile_sublist _).length_le

theorem groupsOf_flatten (b : ℝ) (l : List Pt) : (groupsOf b l).flatten = l := by
  induction l using groupsOf.induct b with
  | case1 => simp [groupsOf]
  | case2 p l ih => rw [groupsOf, List.flatten_cons, ih, List.cons_append, List.takeWhile_append_dropWhile]

theorem mem_takeWhile_lt {b : ℝ} {p : Pt} {l : List Pt} {q : Pt} (h : q ∈ l.takeWhile (fun q => decide (q.t < p.t + b))) : q.t < p.t + b := by
  have := List.mem_takeWhile_imp h
  simpa using this

theorem dropWhile_ge {c : ℝ} {l : List Pt} (hs : l.Pairwise (fun a b => a.t ≤ b.t)) {q : Pt} (h : q ∈ l.dropWhile (fun q => decide (q.t < c))) : c ≤ q.t := by
  induction l with
  | nil => simp at h
  | cons a l ih =>
    rw [List.dropWhile_cons] at h
    split at h
    · exact ih (List.Pairwise.of_cons hs) h
    · rename_i hn
      have ha : c ≤ a.t := by simpa using hn
      rcases List.mem_cons.1 h with rfl | h
      · exact ha
      · exact ha.trans (List.rel_of_pairwise_cons hs h)

theorem dropWhile_sorted {c : ℝ} {l : List Pt} (hs : l.Pairwise (fun a b => a.t ≤ b.t)) :
    (l.dropWhile (fun q => decide (q.t < c))).Pairwise (fun a b => a.t ≤ b.t) :=
  hs.sublist (List.dropWhile_sublist _)

theorem groupsOf_grouping (b : ℝ) (hb : 0 < b) (l : List Pt) (hs : l.Pairwise (fun a b => a.t ≤ b.t)) : Grouping b l (groupsOf b l) := by
  induction l using groupsOf.induct b with
  | case1 => exact ⟨by simp [groupsOf], by simp [groupsOf], by simp [groupsOf], by simp [groupsOf], by simp [groupsOf]⟩
  | case2 p l ih =>
    have hl := List.Pairwise.of_cons hs
    have i := ih (dropWhile_sorted hl)
    have hin : ∀ q ∈ p :: l.takeWhile (fun q => decide (q.t < p.t + b)), p.t ≤ q.t ∧ q.t < p.t + b := by
      intro q hq
      rcases List.mem_cons.1 hq with rfl | hq
      · exact ⟨le_refl _, by linarith⟩
      · exact ⟨List.rel_of_pairwise_cons hs ((List.takeWhile_sublist _).subset hq), mem_takeWhile_lt hq⟩
    have hout : ∀ g ∈ groupsOf b (l.dropWhile (fun q => decide (q.t < p.t + b))), ∀ q ∈ g, p.t + b ≤ q.t := by
      intro g hg q hq
      refine dropWhile_ge hl (i.perm.subset ?_)
      exact List.mem_flatten.2 ⟨g, hg, hq⟩
    refine ⟨?_, ?_, ?_, ?_, ?_⟩
    · rw [groupsOf_flatten]
    · intro g hg
      rw [groupsOf] at hg
      rcases List.mem_cons.1 hg with rfl | hg
      · simp
      · exact i.nonempty g hg
    · intro g hg x hx y hy
      rw [groupsOf] at hg
      rcases List.mem_cons.1 hg with rfl | hg
      · have := hin x hx; have := hin y hy; linarith
      · exact i.narrow g hg x hx y hy
    · rw [groupsOf]
      refine List.pairwise_cons.2 ⟨?_, i.apart⟩
      intro g hg x hx y hy
      exact lt_of_lt_of_le (hin x hx).2 (hout g hg y hy)
    · rw [groupsOf]
      refine List.pairwise_cons.2 ⟨?_, i.starts⟩
      intro g hg
      exact ⟨p, by simp, fun y hy => hout g hg y hy⟩

/-- Output lists of a list of groups. -/
noncomputable def binAll (gs : List (List Pt)) : Binned := ⟨gs.map (weighted Pt.t), gs.map (weighted Pt.v), gs.map binError⟩

theorem inBin_eq (b : ℝ) (pre : List Pt) (p : Pt) (l : List Pt) (hpre : ∀ q ∈ pre, q.t < p.t) (hb : 0 < b)
    (hs : (p :: l).Pairwise (fun a b => a.t ≤ b.t)) :
    inBin b p.t (pre ++ p :: l) = p :: l.takeWhile (fun q => decide (q.t < p.t + b)) := by
  have h1 : inBin b p.t pre = [] := by
    unfold inBin
    rw [List.filter_eq_nil_iff]
    intro q hq
    have := hpre q hq
    simp [this]
  have key : ∀ l : List Pt, l.Pairwise (fun a b => a.t ≤ b.t) → (∀ q ∈ l, p.t ≤ q.t) →
      inBin b p.t l = l.takeWhile (fun q => decide (q.t < p.t + b)) := by
    intro l hl hge
    induction l with
    | nil => rfl
    | cons a l ih =>
      have ha := hge a (by simp)
      rw [List.takeWhile_cons]
      by_cases hlt : a.t < p.t + b
      · unfold inBin at ih ⊢
        rw [List.filter_cons_of_pos (by simp [ha, hlt]), ih (List.Pairwise.of_cons hl) (fun q hq => hge q (by simp [hq]))]
        simp [hlt]
      · simp only [hlt, decide_false, Bool.false_eq_true, if_false]
        unfold inBin
        rw [List.filter_eq_nil_iff]
        intro q hq
        have : a.t ≤ q.t := by
          rcases List.mem_cons.1 hq with rfl | hq
          · exact le_refl _
          · exact List.rel_of_pairwise_cons hl hq
        simp only [Bool.and_eq_true, decide_eq_true_eq, not_and, not_lt]
        intro _
        linarith [not_lt.1 hlt]
  have h2 : inBin b p.t (p :: l) = p :: l.takeWhile (fun q => decide (q.t < p.t + b)) := by
    rw [key (p :: l) hs (by
      intro q hq
      rcases List.mem_cons.1 hq with rfl | hq
      · exact le_refl _
      · exact List.rel_of_pairwise_cons hs hq), List.takeWhile_cons]
    simp [hb]
  unfold inBin at h1 h2 ⊢
  rw [List.filter_append, h1, h2, List.nil_append]

theorem timebinLoop_run (b : ℝ) (hb : 0 < b) (pts : List Pt) (hs : pts.Pairwise (fun a b => a.t ≤ b.t)) (fuel : Nat) :
    ∀ (l pre : List Pt) (gs : List (List Pt)), pts = pre ++ l → (∀ q ∈ pre, ∀ p ∈ l, q.t < p.t) → l.length < fuel → (pre = [] ↔ gs = []) → pts ≠ [] →
      timebinLoop b pts fuel pre.length (if gs = [] then none else some (binAll gs)) = some (.ok (binAll (gs ++ groupsOf b l))) := by
  induction fuel with
  | zero => intro l _ _ _ _ hf; omega
  | succ fuel ih =>
    intro l pre gs he hlt hf hpg hne
    unfold timebinLoop
    cases l with
    | nil =>
      have hp : pre ≠ [] := by rintro rfl; exact hne (by simpa using he)
      have hg : gs ≠ [] := fun h => hp (hpg.2 h)
      have : pts[pre.length]? = none := by rw [he]; simp
      simp only [this, if_neg hg, groupsOf, List.append_nil]
    | cons p l =>
      have hget : pts[pre.length]? = some p := by rw [he]; simp
      simp only [hget]
      have hsl : (p :: l).Pairwise (fun a b => a.t ≤ b.t) := by rw [he] at hs; exact (List.pairwise_append.1 hs).2.1
      have hin : inBin b p.t pts = p :: l.takeWhile (fun q => decide (q.t < p.t + b)) := by
        rw [he]; exact inBin_eq b pre p l (fun q hq => hlt q hq p (by simp)) hb hsl
      rw [hin]
      set g := p :: l.takeWhile (fun q => decide (q.t < p.t + b)) with hg
      have hadd : addBin pre.length (if gs = [] then none else some (binAll gs)) g = .ok (binAll (gs ++ [g])) := by
        unfold addBin
        by_cases h0 : pre = []
        · have := hpg.1 h0
          subst h0; subst this
          simp [binAll]
        · have hgs : gs ≠ [] := fun h => h0 (hpg.2 h)
          rw [if_neg (by simpa using h0), if_neg hgs]
          simp [binAll]
      rw [hadd]
      simp only
      have hrec := ih (l.dropWhile (fun q => decide (q.t < p.t + b))) (pre ++ g) (gs ++ [g])
        (by rw [he, hg, List.append_assoc, List.cons_append, List.takeWhile_append_dropWhile])
        (by
          intro q hq r hr
          have hr' := dropWhile_ge (List.Pairwise.of_cons hsl) hr
          rcases List.mem_append.1 hq with hq | hq
          · exact hlt q hq r (List.mem_cons_of_mem _ ((List.dropWhile_sublist _).subset hr))
          · rw [hg] at hq
            rcases List.mem_cons.1 hq with rfl | hq
            · linarith
            · linarith [mem_takeWhile_lt hq])
        (by
          have := (List.dropWhile_sublist (l := l) (fun q : Pt => decide (q.t < p.t + b))).length_le
          simp only [List.length_cons] at hf
          omega)
        (by simp [hg]) hne
      rw [if_neg (by simp), List.length_append] at hrec
      rw [hrec, groupsOf, List.append_assoc, List.singleton_append]

theorem timebin_groups {argsort : List Pt → List Pt} (ha : IsArgsort argsort) (b : ℝ) (hb : 0 < b) (pts : List Pt) (hne : pts ≠ []) (fuel : Nat)
    (hf : pts.length < fuel) : timebin argsort fuel pts b = some (.ok (binAll (groupsOf b (argsort pts)))) := by
  obtain ⟨h1, h2⟩ := ha pts
  have hne' : argsort pts ≠ [] := by
    intro h; rw [h] at h1; exact hne (List.Perm.nil_eq h1).symm
  have := timebinLoop_run b hb (argsort pts) h2 fuel (argsort pts) [] [] rfl (by simp) (by rw [h1.length_eq]; exact hf) (by simp) hne'
  simpa [timebin] using this

theorem timebinLoop_stuck (b : ℝ) (hb : b ≤ 0) (pts : List Pt) (p : Pt) (hp : pts[0]? = some p) (fuel : Nat) :
    ∀ out, timebinLoop b pts fuel 0 out = none := by
  induction fuel with
  | zero => intro out; rfl
  | succ fuel ih =>
    intro out
    unfold timebinLoop
    simp only [hp]
    have h0 : inBin b p.t pts = [] := by
      unfold inBin
      rw [List.filter_eq_nil_iff]
      intro q _
      simp only [Bool.and_eq_true, decide_eq_true_eq, not_and, not_lt]
      intro h; linarith
    rw [h0]
    simp only [addBin, if_true, List.length_nil, Nat.add_zero]
    exact ih _

/-! ### the numbers of one bin -/

theorem weight_eq (p : Pt) : p.weight = 1 / p.err ^ 2 := by unfold Pt.weight; rw [div_pow, one_pow]

theorem sum_mul_right (l : List Pt) (f : Pt → ℝ) (c : ℝ) : (l.map (fun p => f p * c)).sum = (l.map f).sum * c := by
  induction l with
  | nil => simp
  | cons a l ih => simp only [List.map_cons, List.sum_cons, ih]; ring

theorem weighted_eq (f : Pt → ℝ) (g : List Pt) (h : ∀ p ∈ g, p.err ≠ 0) : weighted f g = some (wmean f g) := by
  classical
  unfold weighted wmean invVar
  rw [if_neg (by rintro ⟨p, hp, h0⟩; exact h p hp h0)]
  congr 1
  have hw : g.map Pt.weight = g.map (fun p => 1 / p.err ^ 2) := List.map_congr_left (fun p _ => weight_eq p)
  rw [hw]
  set S := (g.map (fun p => 1 / p.err ^ 2)).sum with hS
  rw [div_eq_mul_inv, ← sum_mul_right]
  congr 1
  refine List.map_congr_left (fun p _ => ?_)
  rw [weight_eq]
  ring

theorem invVar_pos (g : List Pt) (hne : g ≠ []) (h : ∀ p ∈ g, p.err ≠ 0) : 0 < invVar g := by
  unfold invVar
  refine List.sum_pos _ ?_ (by simpa using hne)
  intro x hx
  obtain ⟨p, hp, rfl⟩ := List.mem_map.1 hx
  have := h p hp
  positivity

theorem binError_eq (g : List Pt) (hne : g ≠ []) (h : ∀ p ∈ g, p.err ≠ 0) : 0 < binError g ∧ 1 / binError g ^ 2 = invVar g := by
  classical
  have hpos := invVar_pos g hne h
  unfold binError
  rw [if_neg (by rintro ⟨p, hp, h0⟩; exact h p hp h0)]
  unfold invVar at hpos ⊢
  refine ⟨by positivity, ?_⟩
  rw [div_pow, one_pow, sq_sqrt hpos.le, one_div_one_div]

theorem wmean_between (f : Pt → ℝ) (g : List Pt) (hne : g ≠ []) (h : ∀ p ∈ g, p.err ≠ 0) (a c : ℝ) (hf : ∀ p ∈ g, a ≤ f p ∧ f p ≤ c) :
    a ≤ wmean f g ∧ wmean f g ≤ c := by
  have hpos := invVar_pos g hne h
  unfold wmean
  rw [le_div_iff₀ hpos, div_le_iff₀ hpos]
  unfold invVar
  constructor
  · rw [mul_comm, ← sum_mul_right]
    refine List.sum_le_sum ?_
    intro p hp
    have := h p hp
    rw [one_div, mul_comm, div_eq_mul_inv]
    exact mul_le_mul_of_nonneg_right (hf p hp).1 (by positivity)
  · rw [mul_comm, ← sum_mul_right]
    refine List.sum_le_sum ?_
    intro p hp
    have := h p hp
    rw [one_div, mul_comm (p.err ^ 2)⁻¹ c, div_eq_mul_inv]
    exact mul_le_mul_of_nonneg_right (hf p hp).2 (by positivity)

theorem invVar_perm {l l' : List Pt} (h : l.Perm l') : invVar l = invVar l' := (h.map _).sum_eq

theorem invVar_flatten (gs : List (List Pt)) : (gs.map invVar).sum = invVar gs.flatten := by
  induction gs with
  | nil => simp [invVar]
  | cons g gs ih => simp only [List.map_cons, List.sum_cons, ih, List.flatten_cons]; simp [invVar]

end Radvel
