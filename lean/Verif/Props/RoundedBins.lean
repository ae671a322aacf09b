import Verif.Model.RoundedBins
import Verif.Props.RoundedPhase
import Verif.Model.Binning

/-!
# Time binning in floating point (C186)
-/

namespace Radvel

theorem filter_split (lim : ℝ) (l : List ℝ) (h : l.Pairwise (· ≤ ·)) : l = l.filter (fun t => decide (t < lim)) ++ l.filter (fun t => decide (¬ t < lim)) := by
  induction l with
  | nil => rfl
  | cons a l ih =>
    rw [List.pairwise_cons] at h
    by_cases ha : a < lim
    · simp only [List.filter_cons, ha, decide_true, if_true, not_true_eq_false, decide_false, Bool.false_eq_true, if_false, List.cons_append]
      rw [← ih h.2]
    · have h1 : ∀ x ∈ l, ¬ x < lim := fun x hx => not_lt.2 ((not_lt.1 ha).trans (h.1 x hx))
      have h2 : l.filter (fun t => decide (t < lim)) = [] := List.filter_eq_nil_iff.2 fun x hx => by simpa using h1 x hx
      have h3 : l.filter (fun t => decide (¬ t < lim)) = l := List.filter_eq_self.2 fun x hx => by simpa using h1 x hx
      rw [List.filter_cons, List.filter_cons, h2, h3]
      simp [ha]

/-- The loop, from a place where a bin begins. -/
theorem splitRounded_spec (rnd : ℝ → ℝ) (b : ℝ) (hlim : ∀ s t, IsBinary t → s + b ≤ t → rnd (s + b) ≤ t) : ∀ (fuel : Nat) (before rest : List ℝ) (out : List (List ℝ)), (before ++ rest).Pairwise (· ≤ ·) →
    (∀ x ∈ before, ∀ y ∈ rest, x < y) → (∀ t ∈ rest, IsBinary t ∧ t < rnd (t + b)) → rest.length < fuel →
    ∃ groups, splitRounded rnd b (before ++ rest) fuel before.length out = some (out ++ groups) ∧ groups.flatten = rest ∧ ∀ g ∈ groups, g ≠ [] ∧ ∀ x ∈ g, ∀ y ∈ g, y - x < b := by
  intro fuel
  induction fuel with
  | zero => intro _ _ _ _ _ _ h; omega
  | succ fuel ih =>
    intro before rest out hs hlt hr hf
    cases rest with
    | nil =>
      refine ⟨[], ?_, rfl, by simp⟩
      simp [splitRounded]
    | cons t0 rest =>
      have hget : (before ++ t0 :: rest)[before.length]? = some t0 := by simp
      have hsr : (t0 :: rest).Pairwise (· ≤ ·) := (List.pairwise_append.1 hs).2.1
      have hmin : ∀ x ∈ t0 :: rest, t0 ≤ x := by
        intro x hx
        rcases List.mem_cons.1 hx with rfl | hx
        · exact le_refl _
        · exact (List.pairwise_cons.1 hsr).1 x hx
      set lim := rnd (t0 + b) with hl
      have hind : (before ++ t0 :: rest).filter (fun t => decide (t0 ≤ t) && decide (t < lim)) = (t0 :: rest).filter (fun t => decide (t < lim)) := by
        rw [List.filter_append]
        have h1 : before.filter (fun t => decide (t0 ≤ t) && decide (t < lim)) = [] := by
          refine List.filter_eq_nil_iff.2 fun x hx => ?_
          have := hlt x hx t0 (by simp)
          simp [not_le.2 this]
        rw [h1, List.nil_append]
        exact List.filter_congr fun x hx => by simp [hmin x hx]
      set g := (t0 :: rest).filter (fun t => decide (t < lim)) with hg
      set r' := (t0 :: rest).filter (fun t => decide (¬ t < lim)) with hr'
      have hsplit : t0 :: rest = g ++ r' := filter_split lim _ hsr
      have h0 : t0 < lim := (hr t0 (by simp)).2
      have hg0 : t0 ∈ g := List.mem_filter.2 ⟨by simp, by simpa using h0⟩
      have hlen : r'.length < fuel := by
        have h1 : (t0 :: rest).length = g.length + r'.length := by rw [hsplit, List.length_append]
        have h2 : 0 < g.length := List.length_pos_of_mem hg0
        omega
      have hassoc : before ++ t0 :: rest = (before ++ g) ++ r' := by rw [hsplit, List.append_assoc]
      obtain ⟨groups, k1, k2, k3⟩ := ih (before ++ g) r' (out ++ [g]) (by rw [← hassoc]; exact hs) (by
          intro x hx y hy
          have hy' := List.mem_filter.1 hy
          rcases List.mem_append.1 hx with hx | hx
          · exact hlt x hx y hy'.1
          · have hx' := (List.mem_filter.1 hx).2
            have hy2 := hy'.2
            simp only [decide_eq_true_eq] at hx' hy2
            linarith) (fun t ht => hr t (List.mem_filter.1 ht).1) hlen
      refine ⟨g :: groups, ?_, ?_, ?_⟩
      · unfold splitRounded
        rw [hget]
        simp only
        rw [hind, hassoc, ← List.length_append, k1]
        simp
      · rw [List.flatten_cons, k2, ← hsplit]
      · intro g' hg'
        rcases List.mem_cons.1 hg' with rfl | hg'
        · refine ⟨List.ne_nil_of_mem hg0, fun x hx y hy => ?_⟩
          obtain ⟨hx1, _⟩ := List.mem_filter.1 hx
          obtain ⟨hy1, hy2⟩ := List.mem_filter.1 hy
          simp only [decide_eq_true_eq] at hy2
          have hxy : y < t0 + b := by
            by_contra hc
            exact absurd (hlim t0 y (hr y hy1).1 (not_lt.1 hc)) (not_le.2 hy2)
          have := hmin x hx1
          linarith
        · exact k3 g' hg'

/-- C186: sorted floating-point times are divided into bins, every time in exactly one, none as wide as the bin size, after at most one turn per time, if the bin size is above the rounding errors of the times (missing: smaller ones, `C186_endless_violated`). -/
theorem C186_bins_partial (rnd : ℝ → ℝ) (h : RoundsToNearest rnd) (b : ℝ) (time : List ℝ) (hs : time.Pairwise (· ≤ ·)) (hb : ∀ t ∈ time, IsBinary t) (hbig : ∀ t ∈ time, |t + b| / 2 ^ 53 < b) (fuel : Nat) (hf : time.length < fuel) :
    ∃ groups, splitRounded rnd b time fuel 0 [] = some groups ∧ groups.flatten = time ∧ ∀ g ∈ groups, g ≠ [] ∧ ∀ x ∈ g, ∀ y ∈ g, y - x < b := by
  have := splitRounded_spec rnd b (fun s t ht hst => h.le ht hst) fuel [] time [] hs (by simp) (fun t ht => ⟨hb t ht, by
    have h1 := h.err (t + b)
    have h2 := hbig t ht
    have h3 := (abs_le.1 h1).2
    linarith⟩) hf
  simpa using this

/-- C186: a bin ends where it should, if the sum of its beginning and the bin size needs no rounding. -/
theorem C186_limit (rnd : ℝ → ℝ) (h : RoundsToNearest rnd) (b t0 : ℝ) (hb : IsBinary (t0 + b)) (t : ℝ) : t < rnd (t0 + b) ↔ t < t0 + b := by
  rw [h.fix hb]

theorem sum_lost (rnd : ℝ → ℝ) (h : RoundsToNearest rnd) (t b : ℝ) (ht : IsBinary t) (h0 : 0 < t) (hb : 0 < b) (hsmall : b < t / 2 ^ 54) : rnd (t + b) = t := by
  refine le_antisymm ?_ (h.ge ht (by linarith))
  by_contra hc
  push Not at hc
  obtain ⟨f, f1, f2, f3⟩ := ht.digits h0
  have hgrid : OnGrid f (rnd (t + b)) := (h.binary _).onGrid ((f2.trans hc).le.trans (le_abs_self _))
  obtain ⟨k, hk⟩ := hgrid
  obtain ⟨p, hp⟩ := f1
  have hfp := two_zpow_pos f
  have hkp : p + 1 ≤ k := by
    rw [hk, hp] at hc
    have := lt_of_mul_lt_mul_right hc hfp.le
    exact_mod_cast this
  have hgap : t + 2 ^ f ≤ rnd (t + b) := by
    rw [hk, hp]
    have : ((p + 1 : ℤ) : ℝ) ≤ k := by exact_mod_cast hkp
    push_cast at this
    nlinarith
  have h5 : t / 2 ^ 54 ≤ 2 ^ f / 2 := by
    rw [div_le_iff₀ (by norm_num)]
    rw [zpow_add₀ (by norm_num)] at f3
    norm_num at f3 ⊢
    linarith
  have hn := h.nearest (t + b) t ht
  rw [abs_of_neg (by linarith), abs_of_pos (by linarith)] at hn
  linarith

/-- C186 in full is false: with a positive bin size below the last digit of the earliest time, the first of the sorted ones, the loop never ends (for Julian dates: below 10⁻¹⁰ days). -/
theorem C186_endless_violated (rnd : ℝ → ℝ) (h : RoundsToNearest rnd) (b t0 : ℝ) (time : List ℝ) (ht : IsBinary t0) (h0 : 0 < t0) (hb : 0 < b) (hsmall : b < t0 / 2 ^ 54) (fuel : Nat) :
    splitRounded rnd b (t0 :: time) fuel 0 [] = none := by
  have hl := sum_lost rnd h t0 b ht h0 hb hsmall
  have hind : (t0 :: time).filter (fun t => decide (t0 ≤ t) && decide (t < rnd (t0 + b))) = [] := by
    rw [hl]
    refine List.filter_eq_nil_iff.2 fun x _ => ?_
    simp only [Bool.and_eq_true, decide_eq_true_eq, not_and, not_lt]
    exact fun h => h
  have key : ∀ fuel out, splitRounded rnd b (t0 :: time) fuel 0 out = none := by
    intro fuel
    induction fuel with
    | zero => intro out; rfl
    | succ fuel ih =>
      intro out
      unfold splitRounded
      simp only [List.getElem?_cons_zero, hind, List.length_nil, Nat.add_zero]
      exact ih _
  exact key fuel []

theorem timebinLoop_split (b : ℝ) (pts : List Pt) : ∀ (fuel ct : Nat) (o : Option Binned) (out : List (List ℝ)) (r : Binned), timebinLoop b pts fuel ct o = some (.ok r) →
    ∃ G : List (List Pt), splitRounded (fun x => x) b (pts.map Pt.t) fuel ct out = some (out ++ G.map (List.map Pt.t)) ∧
      (0 < ct → ∀ o', o = some o' → r = ⟨o'.t ++ G.map (weighted Pt.t), o'.v ++ G.map (weighted Pt.v), o'.err ++ G.map binError⟩) ∧
      (ct = 0 → (∀ p ∈ pts, p.t < p.t + b) → 0 < pts.length → r = ⟨G.map (weighted Pt.t), G.map (weighted Pt.v), G.map binError⟩) := by
  intro fuel
  induction fuel with
  | zero => intro ct o out r h; cases h
  | succ fuel ih =>
    intro ct o out r h
    unfold timebinLoop at h
    cases hp : pts[ct]? with
    | none =>
      rw [hp] at h
      cases o with
      | none => cases h
      | some o' =>
        cases h
        refine ⟨[], ?_, ?_, ?_⟩
        · unfold splitRounded
          rw [List.getElem?_map, hp]
          simp
        · rintro _ o'' ⟨⟩
          simp
        · intro h0 _ hl
          rw [h0, List.getElem?_eq_none_iff] at hp
          omega
    | some p =>
      rw [hp] at h
      simp only at h
      cases ha : addBin ct o (inBin b p.t pts) with
      | error e => rw [ha] at h; cases h
      | ok o1 =>
        rw [ha] at h
        simp only at h
        obtain ⟨G, g1, g2, g3⟩ := ih _ _ (out ++ [(inBin b p.t pts).map Pt.t]) _ h
        refine ⟨inBin b p.t pts :: G, ?_, ?_, ?_⟩
        · unfold splitRounded
          rw [List.getElem?_map, hp]
          simp only [Option.map_some]
          have : (pts.map Pt.t).filter (fun t => decide (p.t ≤ t) && decide (t < p.t + b)) = (inBin b p.t pts).map Pt.t := by
            unfold inBin
            rw [List.filter_map]
            rfl
          rw [this, List.length_map, g1]
          simp
        · rintro hct o' rfl
          unfold addBin at ha
          rw [if_neg (by omega)] at ha
          cases ha
          rw [g2 (by omega) _ rfl]
          simp
        · intro h0 hlt _
          have hmem : p ∈ inBin b p.t pts := List.mem_filter.2 ⟨List.mem_of_getElem? hp, by simp [hlt p (List.mem_of_getElem? hp)]⟩
          have hpos := List.length_pos_of_mem hmem
          unfold addBin at ha
          rw [if_pos h0] at ha
          cases ha
          rw [g2 (by omega) _ rfl]
          simp

/-- Without rounding these are the bins of C50: `timebin` returns their means. -/
theorem timebin_split (argsort : List Pt → List Pt) (fuel : Nat) (pts : List Pt) (b : ℝ) (hb : 0 < b) (r : Binned) (h : timebin argsort fuel pts b = some (.ok r)) (hne : 0 < (argsort pts).length) :
    ∃ G : List (List Pt), splitRounded (fun x => x) b ((argsort pts).map Pt.t) fuel 0 [] = some (G.map (List.map Pt.t)) ∧ r = ⟨G.map (weighted Pt.t), G.map (weighted Pt.v), G.map binError⟩ := by
  obtain ⟨G, g1, _, g3⟩ := timebinLoop_split b (argsort pts) fuel 0 none [] r h
  exact ⟨G, by simpa using g1, g3 rfl (fun p _ => by linarith) hne⟩

/-- The hypotheses can be met: two Julian dates with bins of half a day, and with bins of 10⁻¹⁰ days. -/
example : [2455000.5, 2455001.75].Pairwise ((· ≤ ·) : ℝ → ℝ → Prop) ∧ (∀ t ∈ ([2455000.5, 2455001.75] : List ℝ), IsBinary t ∧ |t + 0.5| / 2 ^ 53 < 0.5) ∧ (1e-10 : ℝ) < 2455000.5 / 2 ^ 54 := by
  refine ⟨by norm_num, ?_, by norm_num⟩
  intro t ht
  simp only [List.mem_cons, List.not_mem_nil, or_false] at ht
  rcases ht with rfl | rfl
  · exact ⟨⟨4910001, -1, by norm_num, by norm_num⟩, by rw [abs_of_pos (by norm_num)]; norm_num⟩
  · exact ⟨⟨9820007, -2, by norm_num, by norm_num⟩, by rw [abs_of_pos (by norm_num)]; norm_num⟩

end Radvel
