import Verif.Model.RoundedTimebin
import Verif.Props.RoundedAverage
import Verif.Props.RoundedBins
import Verif.Props.Binning

/-!
# Time bins and their averages in floating point (C192)
-/

namespace Radvel
open Real

/-- The output lists for these bins. -/
noncomputable def roundedBins (rnd : ℝ → ℝ) (sum : List ℝ → ℝ) (groups : List (List Pt)) : Binned :=
  ⟨groups.map (weightedRounded rnd sum Pt.t), groups.map (weightedRounded rnd sum Pt.v), groups.map (binErrorRounded rnd sum)⟩

theorem filter_split_pt (lim : ℝ) (l : List Pt) (h : l.Pairwise (fun a b => a.t ≤ b.t)) : l = l.filter (fun p => decide (p.t < lim)) ++ l.filter (fun p => decide (¬ p.t < lim)) := by
  induction l with
  | nil => rfl
  | cons a l ih =>
    rw [List.pairwise_cons] at h
    by_cases ha : a.t < lim
    · simp only [List.filter_cons, ha, decide_true, if_true, not_true_eq_false, decide_false, Bool.false_eq_true, if_false, List.cons_append]
      rw [← ih h.2]
    · have h1 : ∀ x ∈ l, ¬ x.t < lim := fun x hx => not_lt.2 ((not_lt.1 ha).trans (h.1 x hx))
      have h2 : l.filter (fun p => decide (p.t < lim)) = [] := List.filter_eq_nil_iff.2 fun x hx => by simpa using h1 x hx
      have h3 : l.filter (fun p => decide (¬ p.t < lim)) = l := List.filter_eq_self.2 fun x hx => by simpa using h1 x hx
      rw [List.filter_cons, List.filter_cons, h2, h3]
      simp [ha]

/-- The loop, from a place where a bin begins. -/
theorem timebinRoundedLoop_spec (rnd : ℝ → ℝ) (sum : List ℝ → ℝ) (b : ℝ) (hlim : ∀ s t, IsBinary t → s + b ≤ t → rnd (s + b) ≤ t) : ∀ (fuel : Nat) (done : List (List Pt)) (rest : List Pt) (out : Option Binned),
    (done.flatten ++ rest).Pairwise (fun a b => a.t ≤ b.t) → (∀ x ∈ done.flatten, ∀ y ∈ rest, x.t < y.t) → (∀ p ∈ rest, IsBinary p.t ∧ p.t < rnd (p.t + b)) → rest.length < fuel →
    (done.flatten = [] → done = []) → (done ≠ [] → out = some (roundedBins rnd sum done)) → (done = [] → rest ≠ []) →
    ∃ groups, timebinRoundedLoop rnd sum b (done.flatten ++ rest) fuel done.flatten.length out = some (.ok (roundedBins rnd sum (done ++ groups))) ∧ groups.flatten = rest ∧
      (∀ g ∈ groups, g ≠ [] ∧ ∀ p ∈ g, ∀ q ∈ g, q.t - p.t < b) ∧ groups.Pairwise (fun g g' => (∀ p ∈ g, ∀ q ∈ g', p.t < q.t) ∧ ∃ p ∈ g, ∀ q ∈ g', rnd (p.t + b) ≤ q.t) := by
  intro fuel
  induction fuel with
  | zero => intro _ _ _ _ _ _ h; omega
  | succ fuel ih =>
    intro done rest out hs hlt hr hf hd hout hrest
    cases rest with
    | nil =>
      have hdn : done ≠ [] := fun h => hrest h rfl
      refine ⟨[], ?_, rfl, by simp, List.Pairwise.nil⟩
      simp [timebinRoundedLoop, hout hdn]
    | cons p0 rest =>
      have hget : (done.flatten ++ p0 :: rest)[done.flatten.length]? = some p0 := by simp
      have hsr : (p0 :: rest).Pairwise (fun a b => a.t ≤ b.t) := (List.pairwise_append.1 hs).2.1
      have hmin : ∀ x ∈ p0 :: rest, p0.t ≤ x.t := by
        intro x hx
        rcases List.mem_cons.1 hx with rfl | hx
        · exact le_refl _
        · exact (List.pairwise_cons.1 hsr).1 x hx
      set lim := rnd (p0.t + b) with hl
      have hind : (done.flatten ++ p0 :: rest).filter (fun q => decide (p0.t ≤ q.t) && decide (q.t < lim)) = (p0 :: rest).filter (fun q => decide (q.t < lim)) := by
        rw [List.filter_append]
        have h1 : done.flatten.filter (fun q => decide (p0.t ≤ q.t) && decide (q.t < lim)) = [] := by
          refine List.filter_eq_nil_iff.2 fun x hx => ?_
          have := hlt x hx p0 (by simp)
          simp [not_le.2 this]
        rw [h1, List.nil_append]
        exact List.filter_congr fun x hx => by simp [hmin x hx]
      set g := (p0 :: rest).filter (fun q => decide (q.t < lim)) with hg
      set r' := (p0 :: rest).filter (fun q => decide (¬ q.t < lim)) with hr'
      have hsplit : p0 :: rest = g ++ r' := filter_split_pt lim _ hsr
      have h0 : p0.t < lim := (hr p0 (by simp)).2
      have hg0 : p0 ∈ g := List.mem_filter.2 ⟨by simp, by simpa using h0⟩
      have hlen : r'.length < fuel := by
        have h1 : (p0 :: rest).length = g.length + r'.length := by rw [hsplit, List.length_append]
        have h2 : 0 < g.length := List.length_pos_of_mem hg0
        omega
      have hfl : (done ++ [g]).flatten = done.flatten ++ g := by simp
      have hassoc : done.flatten ++ p0 :: rest = (done ++ [g]).flatten ++ r' := by rw [hsplit, hfl, List.append_assoc]
      have hgr : ∀ x ∈ g, ∀ y ∈ r', x.t < y.t := by
        intro x hx y hy
        have hx' := (List.mem_filter.1 hx).2
        have hy2 := (List.mem_filter.1 hy).2
        simp only [decide_eq_true_eq] at hx' hy2
        linarith
      have hadd : addBinRounded rnd sum done.flatten.length out g = .ok (roundedBins rnd sum (done ++ [g])) := by
        unfold addBinRounded
        by_cases hz : done = []
        · simp [hz, roundedBins]
        · have : done.flatten.length ≠ 0 := fun h => hz (hd (List.length_eq_zero_iff.1 h))
          rw [if_neg this, hout hz]
          simp [roundedBins]
      obtain ⟨groups, k1, k2, k3, k4⟩ := ih (done ++ [g]) r' (some (roundedBins rnd sum (done ++ [g]))) (by rw [← hassoc]; exact hs) (by
          intro x hx y hy
          rw [hfl] at hx
          rcases List.mem_append.1 hx with hx | hx
          · exact hlt x hx y (List.mem_filter.1 hy).1
          · exact hgr x hx y hy) (fun t ht => hr t (List.mem_filter.1 ht).1) hlen
          (fun h => by rw [hfl] at h; exact absurd (List.append_eq_nil_iff.1 h).2 (List.ne_nil_of_mem hg0)) (fun _ => rfl) (fun h => by simp at h)
      refine ⟨g :: groups, ?_, ?_, ?_, ?_⟩
      · unfold timebinRoundedLoop
        rw [hget]
        simp only
        rw [hind, hadd]
        simp only
        rw [hassoc, ← List.length_append, ← hfl, k1]
        simp
      · rw [List.flatten_cons, k2, ← hsplit]
      · intro g' hg'
        rcases List.mem_cons.1 hg' with rfl | hg'
        · refine ⟨List.ne_nil_of_mem hg0, fun x hx y hy => ?_⟩
          obtain ⟨hx1, _⟩ := List.mem_filter.1 hx
          obtain ⟨hy1, hy2⟩ := List.mem_filter.1 hy
          simp only [decide_eq_true_eq] at hy2
          have hxy : y.t < p0.t + b := by
            by_contra hc
            exact absurd (hlim p0.t y.t (hr y hy1).1 (not_lt.1 hc)) (not_le.2 hy2)
          have := hmin x hx1
          linarith
        · exact k3 g' hg'
      · refine List.Pairwise.cons ?_ k4
        intro g' hg'
        have sub : ∀ q ∈ g', q ∈ r' := fun q hq => by rw [← k2]; exact List.mem_flatten.2 ⟨g', hg', hq⟩
        refine ⟨fun p hp q hq => hgr p hp q (sub q hq), p0, hg0, fun q hq => ?_⟩
        have := (List.mem_filter.1 (sub q hq)).2
        simpa using this

theorem timebinRoundedLoop_mono (rnd : ℝ → ℝ) (sum : List ℝ → ℝ) (b : ℝ) (pts : List Pt) : ∀ (f ct : Nat) (out : Option Binned) (x : Except PyErr Binned),
    timebinRoundedLoop rnd sum b pts f ct out = some x → timebinRoundedLoop rnd sum b pts (f + 1) ct out = some x := by
  intro f
  induction f with
  | zero => intro ct out x h; cases h
  | succ f ih =>
    intro ct out x h
    unfold timebinRoundedLoop at h ⊢
    cases hp : pts[ct]? with
    | none => rw [hp] at h; exact h
    | some p =>
      rw [hp] at h
      simp only at h ⊢
      split at h
      · exact h
      · exact ih _ _ _ h

theorem forall₂_map {α β : Type} {R : α → β → Prop} (f : α → β) (l : List α) (h : ∀ a ∈ l, R a (f a)) : List.Forall₂ R l (l.map f) := by
  induction l with
  | nil => exact .nil
  | cons a l ih => exact .cons (h a (by simp)) (ih fun x hx => h x (by simp [hx]))

/-- C192: `timebin`, with rounding and any order of additions, ends after at most one turn per observation; it divides the observations into bins that follow one another and are narrower than the bin size, each beginning a bin size (up to a rounding error) after the one before; and it returns for each bin the inverse-variance weighted means of its times and velocities and their error up to rounding errors.
Missing: bins that begin exactly a bin size apart (`C192_starts_violated`), and bin sizes below the rounding errors of the times (`C192_endless_violated`). -/
theorem C192_timebin_partial (rnd : ℝ → ℝ) (h : RoundsToNearest rnd) (sum : List ℝ → ℝ) (hsum : SumsRounded rnd sum) (argsort : List Pt → List Pt) (ha : IsArgsort argsort) (pts : List Pt) (hne : pts ≠ []) (b : ℝ)
    (ht : ∀ p ∈ pts, IsBinary p.t ∧ |p.t + b| / 2 ^ 53 < b) (he : ∀ p ∈ pts, 0 < p.err) (hn : pts.length ≤ 2 ^ 50) (T V : ℝ) (hT : ∀ p ∈ pts, |p.t| ≤ T) (hV : ∀ p ∈ pts, |p.v| ≤ V) :
    ∃ (groups : List (List Pt)) (r : Binned), groups.flatten.Perm pts ∧ (∀ g ∈ groups, g ≠ []) ∧ (∀ g ∈ groups, ∀ p ∈ g, ∀ q ∈ g, q.t - p.t < b) ∧
      groups.Pairwise (fun g g' => (∀ p ∈ g, ∀ q ∈ g', p.t < q.t) ∧ ∃ p ∈ g, ∀ q ∈ g', p.t + b - |p.t + b| / 2 ^ 53 ≤ q.t) ∧
      (∀ fuel, pts.length < fuel → timebinRounded rnd sum argsort fuel pts b = some (.ok r)) ∧
      List.Forall₂ (fun g x => ∃ a, x = some a ∧ |a - wmean Pt.t g| ≤ (4 * g.length + 16) * T / 2 ^ 53) groups r.t ∧
      List.Forall₂ (fun g x => ∃ a, x = some a ∧ |a - wmean Pt.v g| ≤ (4 * g.length + 16) * V / 2 ^ 53) groups r.v ∧
      List.Forall₂ (fun g e => |e - 1 / √(invVar g)| ≤ (2 * g.length + 8) / 2 ^ 53 * (1 / √(invVar g))) groups r.err := by
  obtain ⟨hp, hs⟩ := ha pts
  have hmem : ∀ p ∈ argsort pts, p ∈ pts := fun p hp' => hp.subset hp'
  have hne' : argsort pts ≠ [] := fun h0 => hne (by rw [h0] at hp; exact hp.symm.eq_nil)
  obtain ⟨groups, k1, k2, k3, k4⟩ := timebinRoundedLoop_spec rnd sum b (fun s t ht hst => h.le ht hst) (pts.length + 1) [] (argsort pts) none (by simpa using hs) (by simp) (fun p hp' => ⟨(ht p (hmem p hp')).1, by
    have h1 := h.err (p.t + b)
    have h2 := (ht p (hmem p hp')).2
    have h3 := (abs_le.1 h1).2
    linarith⟩) (by rw [hp.length_eq]; omega) (fun _ => rfl) (fun h0 => absurd rfl h0) (fun _ => hne')
  simp only [List.flatten_nil, List.nil_append, List.length_nil] at k1
  have hperm : groups.flatten.Perm pts := by rw [k2]; exact hp
  have sub : ∀ g ∈ groups, ∀ p ∈ g, p ∈ pts := fun g hg p hpg => hperm.subset (List.mem_flatten.2 ⟨g, hg, hpg⟩)
  have small : ∀ g ∈ groups, g.length ≤ 2 ^ 50 := fun g hg => ((List.sublist_flatten_of_mem hg).length_le.trans hperm.length_eq.le).trans hn
  refine ⟨groups, roundedBins rnd sum groups, hperm, fun g hg => (k3 g hg).1, fun g hg => (k3 g hg).2, ?_, ?_, forall₂_map _ _ ?_, forall₂_map _ _ ?_, forall₂_map _ _ ?_⟩
  · refine k4.imp ?_
    rintro g g' ⟨h1, p, hpg, h2⟩
    refine ⟨h1, p, hpg, fun q hq => ?_⟩
    have h3 := (abs_le.1 (h.err (p.t + b))).2
    have h4 := h2 q hq
    linarith
  · intro fuel hf
    obtain ⟨d, rfl⟩ := Nat.exists_eq_add_of_lt hf
    unfold timebinRounded
    induction d with
    | zero => exact k1
    | succ d ih => exact timebinRoundedLoop_mono _ _ _ _ _ _ _ _ (ih (by omega))
  · exact fun g hg => C190_average rnd h sum hsum g (k3 g hg).1 (fun p hpg => he p (sub g hg p hpg)) Pt.t T (fun p hpg => hT p (sub g hg p hpg)) (small g hg)
  · exact fun g hg => C190_average rnd h sum hsum g (k3 g hg).1 (fun p hpg => he p (sub g hg p hpg)) Pt.v V (fun p hpg => hV p (sub g hg p hpg)) (small g hg)
  · exact fun g hg => C190_error rnd h sum hsum g (k3 g hg).1 (fun p hpg => he p (sub g hg p hpg)) (small g hg)

/-- Without rounding this is `timebin`. -/
theorem timebinRounded_exact (argsort : List Pt → List Pt) (fuel : Nat) (pts : List Pt) (b : ℝ) : timebinRounded id List.sum argsort fuel pts b = timebin argsort fuel pts b := by
  unfold timebinRounded timebin
  generalize argsort pts = l
  have key : ∀ (fuel ct : Nat) (out : Option Binned), timebinRoundedLoop id List.sum b l fuel ct out = timebinLoop b l fuel ct out := by
    intro fuel
    induction fuel with
    | zero => intro _ _; rfl
    | succ fuel ih =>
      intro ct out
      unfold timebinRoundedLoop timebinLoop
      have e : ∀ ind, binErrorRounded id List.sum ind = binError ind := fun ind => (weightedRounded_exact Pt.t ind).2
      simp only [addBinRounded, addBin, weightedRounded_exact, e, inBin, id_eq, ih]
      rfl
  exact key fuel 0 none

/-- The output lists of both loops, for the same bins with observations from `pts`. -/
def SameBins (rnd : ℝ → ℝ) (sum : List ℝ → ℝ) (pts : List Pt) (r r0 : Binned) : Prop :=
  ∃ groups : List (List Pt), (∀ g ∈ groups, g ≠ [] ∧ g.Sublist pts) ∧ r = roundedBins rnd sum groups ∧ r0 = roundedBins id List.sum groups

theorem forall₂_maps {α β γ : Type} {R : β → γ → Prop} (f : α → β) (f' : α → γ) (l : List α) (h : ∀ a ∈ l, R (f a) (f' a)) : List.Forall₂ R (l.map f) (l.map f') := by
  induction l with
  | nil => exact .nil
  | cons a l ih => exact .cons (h a (by simp)) (ih fun x hx => h x (by simp [hx]))

theorem loops_agree (rnd : ℝ → ℝ) (sum : List ℝ → ℝ) (b : ℝ) (hb : 0 < b) (pts : List Pt) (hx : ∀ p ∈ pts, rnd (p.t + b) = p.t + b) : ∀ (fuel ct : Nat) (out out0 : Option Binned) (r0 : Binned),
    (out = none ∧ out0 = none ∨ ∃ r r0, out = some r ∧ out0 = some r0 ∧ SameBins rnd sum pts r r0) → timebinRoundedLoop id List.sum b pts fuel ct out0 = some (.ok r0) →
    ∃ r, timebinRoundedLoop rnd sum b pts fuel ct out = some (.ok r) ∧ SameBins rnd sum pts r r0 := by
  intro fuel
  induction fuel with
  | zero => intro _ _ _ _ _ h; cases h
  | succ fuel ih =>
    intro ct out out0 r0 hrel h
    unfold timebinRoundedLoop at h ⊢
    cases hp : pts[ct]? with
    | none =>
      rw [hp] at h
      rcases hrel with ⟨rfl, rfl⟩ | ⟨r, r', rfl, rfl, hs⟩
      · simp at h
      · simp only [Option.some.injEq, Except.ok.injEq] at h
        subst h
        exact ⟨r, rfl, hs⟩
    | some p =>
      have hmem : p ∈ pts := List.mem_of_getElem? hp
      rw [hp] at h
      simp only [id_eq] at h
      simp only [hx p hmem]
      set ind := pts.filter (fun q => decide (p.t ≤ q.t) && decide (q.t < p.t + b)) with hind
      have hi : ind ≠ [] ∧ ind.Sublist pts := ⟨List.ne_nil_of_mem (List.mem_filter.2 ⟨hmem, by simp [hb]⟩), List.filter_sublist⟩
      unfold addBinRounded at h ⊢
      by_cases hc : ct = 0
      · rw [if_pos hc] at h ⊢
        simp only at h ⊢
        exact ih _ _ _ _ (.inr ⟨_, _, rfl, rfl, [ind], by simpa using hi, rfl, rfl⟩) h
      · rw [if_neg hc] at h ⊢
        rcases hrel with ⟨rfl, rfl⟩ | ⟨r, r', rfl, rfl, gs, h1, rfl, rfl⟩
        · simp at h
        · simp only at h ⊢
          refine ih _ _ _ _ (.inr ⟨_, _, rfl, rfl, gs ++ [ind], ?_, by simp [roundedBins], by simp [roundedBins]⟩) h
          intro g hg
          rcases List.mem_append.1 hg with hg | hg
          · exact h1 g hg
          · rw [List.mem_singleton.1 hg]; exact hi

/-- C192: if the sums of the times and the bin size need no rounding, `timebin` with rounding returns what it returns without (C50), up to rounding errors of the averages. -/
theorem C192_same (rnd : ℝ → ℝ) (h : RoundsToNearest rnd) (sum : List ℝ → ℝ) (hsum : SumsRounded rnd sum) (argsort : List Pt → List Pt) (ha : IsArgsort argsort) (pts : List Pt) (hne : pts ≠ []) (b : ℝ) (hb : 0 < b)
    (ht : ∀ p ∈ pts, IsBinary (p.t + b)) (he : ∀ p ∈ pts, 0 < p.err) (hn : pts.length ≤ 2 ^ 50) (T V : ℝ) (hT : ∀ p ∈ pts, |p.t| ≤ T) (hV : ∀ p ∈ pts, |p.v| ≤ V) :
    ∃ r0 r : Binned, (∀ fuel, pts.length < fuel → timebin argsort fuel pts b = some (.ok r0) ∧ timebinRounded rnd sum argsort fuel pts b = some (.ok r)) ∧
      List.Forall₂ (fun x0 x => ∃ a0 a, x0 = some a0 ∧ x = some a ∧ |a - a0| ≤ (4 * pts.length + 16) * T / 2 ^ 53) r0.t r.t ∧
      List.Forall₂ (fun x0 x => ∃ a0 a, x0 = some a0 ∧ x = some a ∧ |a - a0| ≤ (4 * pts.length + 16) * V / 2 ^ 53) r0.v r.v ∧
      List.Forall₂ (fun e0 e : ℝ => |e - e0| ≤ (2 * pts.length + 8) / 2 ^ 53 * e0) r0.err r.err := by
  obtain ⟨-, r0, -, k, -⟩ := C50_partition argsort ha pts hne b hb (fun p hp => (he p hp).ne')
  obtain ⟨hp, -⟩ := ha pts
  have hmem : ∀ p ∈ argsort pts, p ∈ pts := fun p hp' => hp.subset hp'
  have k1 : timebinRoundedLoop id List.sum b (argsort pts) (pts.length + 1) 0 none = some (.ok r0) := by
    rw [← k (pts.length + 1) (by omega), ← timebinRounded_exact]
    rfl
  obtain ⟨r, k2, gs, g1, rfl, rfl⟩ := loops_agree rnd sum b hb (argsort pts) (fun p hp' => h.fix (ht p (hmem p hp'))) _ _ none none _ (.inl ⟨rfl, rfl⟩) k1
  have hl : ∀ g ∈ gs, g.length ≤ pts.length := fun g hg => (g1 g hg).2.length_le.trans hp.length_eq.le
  have sub : ∀ g ∈ gs, ∀ p ∈ g, p ∈ pts := fun g hg p hpg => hmem p ((g1 g hg).2.subset hpg)
  have herr : ∀ g ∈ gs, ∀ p ∈ g, 0 < p.err := fun g hg p hpg => he p (sub g hg p hpg)
  have avg : ∀ (f : Pt → ℝ) (M : ℝ), (∀ p ∈ pts, |f p| ≤ M) → ∀ g ∈ gs, ∃ a0 a, weightedRounded id List.sum f g = some a0 ∧ weightedRounded rnd sum f g = some a ∧ |a - a0| ≤ (4 * pts.length + 16) * M / 2 ^ 53 := by
    intro f M hM g hg
    obtain ⟨a, e1, e2⟩ := C190_average rnd h sum hsum g (g1 g hg).1 (herr g hg) f M (fun p hpg => hM p (sub g hg p hpg)) ((hl g hg).trans hn)
    refine ⟨wmean f g, a, ?_, e1, e2.trans ?_⟩
    · rw [(weightedRounded_exact f g).1, weighted_eq f g fun p hpg => (herr g hg p hpg).ne']
    · obtain ⟨p, hpg⟩ := List.exists_mem_of_ne_nil g (g1 g hg).1
      have M0 : 0 ≤ M := (abs_nonneg _).trans (hM p (sub g hg p hpg))
      have : (g.length : ℝ) ≤ pts.length := by exact_mod_cast hl g hg
      gcongr
  refine ⟨roundedBins id List.sum gs, roundedBins rnd sum gs, fun fuel hf => ⟨k fuel hf, ?_⟩, forall₂_maps _ _ _ (avg Pt.t T hT), forall₂_maps _ _ _ (avg Pt.v V hV), forall₂_maps _ _ _ ?_⟩
  · obtain ⟨d, rfl⟩ := Nat.exists_eq_add_of_lt hf
    unfold timebinRounded
    induction d with
    | zero => exact k2
    | succ d ih => exact timebinRoundedLoop_mono _ _ _ _ _ _ _ _ (ih (by omega))
  · intro g hg
    have e0 : binErrorRounded id List.sum g = 1 / √(invVar g) := by
      rw [(weightedRounded_exact Pt.t g).2, binError, if_neg fun ⟨p, hpg, hz⟩ => (herr g hg p hpg).ne' hz]
      rfl
    rw [e0]
    refine (C190_error rnd h sum hsum g (g1 g hg).1 (herr g hg) ((hl g hg).trans hn)).trans ?_
    have : (g.length : ℝ) ≤ pts.length := by exact_mod_cast hl g hg
    gcongr

/-- C192 in full is false: if the sum of the first time and the bin size is rounded down, an observation at the rounded sum gets a bin of its own, although it is less than a bin size after the first one; without rounding the two share a bin. -/
theorem C192_starts_violated (rnd : ℝ → ℝ) (sum : List ℝ → ℝ) (argsort : List Pt → List Pt) (ha : IsArgsort argsort) (t b v v' e e' : ℝ) (h1 : t < rnd (t + b)) (h2 : rnd (t + b) < t + b) (h3 : rnd (t + b) < rnd (rnd (t + b) + b)) :
    (∃ r, timebinRounded rnd sum argsort 3 [⟨t, v, e⟩, ⟨rnd (t + b), v', e'⟩] b = some (.ok r) ∧ r.t.length = 2) ∧
    ∃ r, timebin argsort 3 [⟨t, v, e⟩, ⟨rnd (t + b), v', e'⟩] b = some (.ok r) ∧ r.t.length = 1 := by
  obtain ⟨hp, hs⟩ := ha [⟨t, v, e⟩, ⟨rnd (t + b), v', e'⟩]
  have hsort : argsort [⟨t, v, e⟩, ⟨rnd (t + b), v', e'⟩] = [⟨t, v, e⟩, ⟨rnd (t + b), v', e'⟩] := by
    refine List.Perm.eq_of_pairwise (le := fun a b : Pt => a.t ≤ b.t) (fun p q hp' hq h h' => ?_) hs (by simp [h1.le]) hp
    have hp' := hp.subset hp'
    simp only [List.mem_cons, List.not_mem_nil, or_false] at hp' hq
    rcases hp' with rfl | rfl <;> rcases hq with rfl | rfl
    · rfl
    · exact absurd h' (not_le.2 h1)
    · exact absurd h (not_le.2 h1)
    · rfl
  constructor
  · unfold timebinRounded
    rw [hsort]
    simp [timebinRoundedLoop, addBinRounded, h1, h3, h1.le, not_le.2 h1]
  · unfold timebin
    rw [hsort]
    have : t < t + b := h1.trans h2
    simp [timebinLoop, addBin, inBin, h2, h1.le, this]

/-- C192 in full is false: with a positive bin size below the last digit of the earliest time the call never returns. -/
theorem C192_endless_violated (rnd : ℝ → ℝ) (h : RoundsToNearest rnd) (sum : List ℝ → ℝ) (argsort : List Pt → List Pt) (ha : IsArgsort argsort) (pts : List Pt) (b t0 : ℝ) (hmin : ∃ p ∈ pts, p.t = t0) (hle : ∀ p ∈ pts, t0 ≤ p.t)
    (ht : IsBinary t0) (h0 : 0 < t0) (hb : 0 < b) (hsmall : b < t0 / 2 ^ 54) (fuel : Nat) : timebinRounded rnd sum argsort fuel pts b = none := by
  obtain ⟨hp, hs⟩ := ha pts
  obtain ⟨q, hq, hqt⟩ := hmin
  unfold timebinRounded
  cases hl : argsort pts with
  | nil => rw [hl] at hp; rw [← hp.nil_eq] at hq; simp at hq
  | cons p l =>
    rw [hl] at hs hp
    have hpt : p.t = t0 := by
      refine le_antisymm ?_ (hle p (hp.subset (by simp)))
      rcases List.mem_cons.1 (hp.symm.subset hq) with e | e
      · rw [← hqt, e]
      · rw [← hqt]; exact (List.pairwise_cons.1 hs).1 q e
    have hind : (p :: l).filter (fun x => decide (p.t ≤ x.t) && decide (x.t < rnd (p.t + b))) = [] := by
      rw [hpt, sum_lost rnd h t0 b ht h0 hb hsmall]
      refine List.filter_eq_nil_iff.2 fun x _ => ?_
      simp only [Bool.and_eq_true, decide_eq_true_eq, not_and, not_lt]
      exact fun h => h
    have key : ∀ fuel out, timebinRoundedLoop rnd sum b (p :: l) fuel 0 out = none := by
      intro fuel
      induction fuel with
      | zero => intro _; rfl
      | succ fuel ih =>
        intro out
        unfold timebinRoundedLoop
        simp only [List.getElem?_cons_zero, hind, addBinRounded, if_true, List.length_nil, Nat.add_zero]
        exact ih _
    exact key fuel none

/-- The hypotheses of `C192_endless_violated` are met by Julian dates and a bin size of 1e-10 days. -/
example : IsBinary (2455000.5 : ℝ) ∧ (1e-10 : ℝ) < 2455000.5 / 2 ^ 54 ∧ (∃ p ∈ [(⟨2455001.75, -3, 2⟩ : Pt), ⟨2455000.5, 5, 1⟩], p.t = 2455000.5) ∧ ∀ p ∈ [(⟨2455001.75, -3, 2⟩ : Pt), ⟨2455000.5, 5, 1⟩], 2455000.5 ≤ p.t := by
  refine ⟨⟨4910001, -1, by norm_num, by norm_num⟩, by norm_num, ⟨⟨2455000.5, 5, 1⟩, by simp, rfl⟩, ?_⟩
  intro p hp
  simp only [List.mem_cons, List.not_mem_nil, or_false] at hp
  rcases hp with rfl | rfl <;> norm_num

/-- The hypotheses of `C192_starts_violated` are met by a Julian date and the double nearest to 0.3. -/
example (rnd : ℝ → ℝ) (h : RoundsToNearest rnd) : (2455000.5 : ℝ) < rnd (2455000.5 + 5404319552844595 / 2 ^ 54) ∧ rnd (2455000.5 + 5404319552844595 / 2 ^ 54) < 2455000.5 + 5404319552844595 / 2 ^ 54 ∧
    rnd (2455000.5 + 5404319552844595 / 2 ^ 54) < rnd (rnd (2455000.5 + 5404319552844595 / 2 ^ 54) + 5404319552844595 / 2 ^ 54) := by
  have e : rnd (2455000.5 + 5404319552844595 / 2 ^ 54) = ((5272074073826918 : ℤ) : ℝ) * 2 ^ (-31 : ℤ) := h.value _ 5272074073826918 (-31) (by norm_num) (by norm_num) (by norm_num [abs_lt])
  rw [e]
  refine ⟨by norm_num, by norm_num, ?_⟩
  have k : IsBinary (((5272074073826919 : ℤ) : ℝ) * 2 ^ (-31 : ℤ)) := ⟨5272074073826919, -31, by norm_num, rfl⟩
  have := h.ge (x := ((5272074073826918 : ℤ) : ℝ) * 2 ^ (-31 : ℤ) + 5404319552844595 / 2 ^ 54) k (by norm_num)
  refine lt_of_lt_of_le ?_ this
  norm_num

/-- The hypotheses of `C192_same` can be met: sums of Julian dates and half a day. -/
example : ∀ p ∈ [(⟨2455000.5, 5, 1⟩ : Pt), ⟨2455001.75, -3, 2⟩], IsBinary (p.t + 0.5) := by
  intro p hp
  simp only [List.mem_cons, List.not_mem_nil, or_false] at hp
  rcases hp with rfl | rfl
  · exact ⟨2455001, 0, by norm_num, by norm_num⟩
  · exact ⟨9820009, -2, by norm_num, by norm_num⟩

/-- The hypotheses of `C192_timebin_partial` can be met: two observations in half-day bins. -/
example : (∃ rnd sum argsort, RoundsToNearest rnd ∧ SumsRounded rnd sum ∧ IsArgsort argsort) ∧ ∀ p ∈ [(⟨2455000.5, 5, 1⟩ : Pt), ⟨2455001.75, -3, 2⟩], (IsBinary p.t ∧ |p.t + 0.5| / 2 ^ 53 < 0.5) ∧ 0 < p.err ∧ |p.t| ≤ 2455002 ∧ |p.v| ≤ 5 := by
  obtain ⟨rnd, h⟩ := exists_rounding
  obtain ⟨argsort, ha⟩ := exists_argsort
  refine ⟨⟨rnd, seqSum rnd, argsort, h, seqSum_sums rnd, ha⟩, ?_⟩
  intro p hp
  simp only [List.mem_cons, List.not_mem_nil, or_false] at hp
  rcases hp with rfl | rfl
  · exact ⟨⟨⟨4910001, -1, by norm_num, by norm_num⟩, by rw [abs_of_pos (by norm_num)]; norm_num⟩, by norm_num, by norm_num [abs_le], by norm_num [abs_le]⟩
  · exact ⟨⟨⟨9820007, -2, by norm_num, by norm_num⟩, by rw [abs_of_pos (by norm_num)]; norm_num⟩, by norm_num, by norm_num [abs_le], by norm_num [abs_le]⟩

end Radvel
