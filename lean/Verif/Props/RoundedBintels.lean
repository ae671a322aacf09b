import Verif.Model.RoundedBintels
import Verif.Props.RoundedTimebin

/-!
# Binning by telescope in floating point (C193)
-/

namespace Radvel
open Real

/-- Two lists of averages, none nan, differ by at most `d` in every place. -/
def CloseAverages (d : ℝ) (l0 l : List (Option ℝ)) : Prop := List.Forall₂ (fun x0 x => ∃ a0 a, x0 = some a0 ∧ x = some a ∧ |a - a0| ≤ d) l0 l

/-- Two lists of errors differ by at most a fraction `d` in every place. -/
def CloseErrors (d : ℝ) (l0 l : List ℝ) : Prop := List.Forall₂ (fun e0 e : ℝ => |e - e0| ≤ d * e0) l0 l

theorem forall₂_append {α β : Type} {R : α → β → Prop} {a b : List α} {c d : List β} (h : List.Forall₂ R a c) (h' : List.Forall₂ R b d) : List.Forall₂ R (a ++ b) (c ++ d) := by
  induction h with
  | nil => exact h'
  | cons h _ ih => exact .cons h ih

theorem ownData_sub (data : List (String × Pt)) (tel : String) : (∀ p ∈ ownData data tel, p ∈ data.map Prod.snd) ∧ (ownData data tel).length ≤ data.length := by
  unfold ownData
  refine ⟨fun p hp => ?_, by rw [List.length_map]; exact List.length_filter_le _ _⟩
  obtain ⟨d, hd, rfl⟩ := List.mem_map.1 hp
  exact List.mem_map.2 ⟨d, (List.mem_filter.1 hd).1, rfl⟩

/-- One call of `timebin`, with bounds for all the data. -/
theorem timebin_close (rnd : ℝ → ℝ) (h : RoundsToNearest rnd) (sum : List ℝ → ℝ) (hsum : SumsRounded rnd sum) (argsort : List Pt → List Pt) (ha : IsArgsort argsort) (all pts : List Pt) (hsub : ∀ p ∈ pts, p ∈ all) (hlen : pts.length ≤ all.length) (hne : pts ≠ []) (b : ℝ) (hb : 0 < b)
    (ht : ∀ p ∈ all, IsBinary (p.t + b)) (he : ∀ p ∈ all, 0 < p.err) (hn : all.length ≤ 2 ^ 50) (T V : ℝ) (hT : ∀ p ∈ all, |p.t| ≤ T) (hV : ∀ p ∈ all, |p.v| ≤ V) (fuel : Nat) (hf : all.length < fuel) :
    ∃ r0 r : Binned, timebin argsort fuel pts b = some (.ok r0) ∧ timebinRounded rnd sum argsort fuel pts b = some (.ok r) ∧
      CloseAverages ((4 * all.length + 16) * T / 2 ^ 53) r0.t r.t ∧ CloseAverages ((4 * all.length + 16) * V / 2 ^ 53) r0.v r.v ∧ CloseErrors ((2 * all.length + 8) / 2 ^ 53) r0.err r.err := by
  obtain ⟨groups, r0', -, k0, -, -, -, kpos⟩ := C50_partition argsort ha pts hne b hb (fun p hp => (he p (hsub p hp)).ne')
  obtain ⟨r0, r, k1, k2, k3, k4⟩ := C192_same rnd h sum hsum argsort ha pts hne b hb (fun p hp => ht p (hsub p hp)) (fun p hp => he p (hsub p hp)) (hlen.trans hn) T V (fun p hp => hT p (hsub p hp)) (fun p hp => hV p (hsub p hp))
  have e : r0' = r0 := by
    have h1 := k0 fuel (by omega)
    rw [(k1 fuel (by omega)).1] at h1
    simpa using h1.symm
  subst e
  obtain ⟨p, hp⟩ := List.exists_mem_of_ne_nil pts hne
  have T0 : 0 ≤ T := (abs_nonneg _).trans (hT p (hsub p hp))
  have V0 : 0 ≤ V := (abs_nonneg _).trans (hV p (hsub p hp))
  have hl : (pts.length : ℝ) ≤ all.length := by exact_mod_cast hlen
  refine ⟨r0', r, (k1 fuel (by omega)).1, (k1 fuel (by omega)).2, k2.imp ?_, k3.imp ?_, ?_⟩
  · rintro x0 x ⟨a0, a, e1, e2, e3⟩
    exact ⟨a0, a, e1, e2, e3.trans (by gcongr)⟩
  · rintro x0 x ⟨a0, a, e1, e2, e3⟩
    exact ⟨a0, a, e1, e2, e3.trans (by gcongr)⟩
  · unfold CloseErrors
    have : ∀ l0 l : List ℝ, (∀ e ∈ l0, 0 < e) → List.Forall₂ (fun e0 e : ℝ => |e - e0| ≤ (2 * pts.length + 8) / 2 ^ 53 * e0) l0 l → List.Forall₂ (fun e0 e : ℝ => |e - e0| ≤ (2 * all.length + 8) / 2 ^ 53 * e0) l0 l := by
      intro l0 l hpos hh
      induction hh with
      | nil => exact .nil
      | @cons a c l l' h1 _ ih =>
        refine .cons (h1.trans ?_) (ih fun e he => hpos e (by simp [he]))
        have := hpos a (by simp)
        gcongr
    exact this _ _ kpos k4

/-- C193: if the sums of the times and the bin size need no rounding, `bintels` with rounding returns the labels it returns without, and times, velocities and errors that differ by rounding errors only (missing: sums that are rounded, `C193_labels_violated`). -/
theorem C193_same_partial (rnd : ℝ → ℝ) (h : RoundsToNearest rnd) (sum : List ℝ → ℝ) (hsum : SumsRounded rnd sum) (argsort : List Pt → List Pt) (ha : IsArgsort argsort) (data : List (String × Pt)) (b : ℝ) (hb : 0 < b)
    (ht : ∀ d ∈ data, IsBinary (d.2.t + b)) (he : ∀ d ∈ data, 0 < d.2.err) (hn : data.length ≤ 2 ^ 50) (T V : ℝ) (hT : ∀ d ∈ data, |d.2.t| ≤ T) (hV : ∀ d ∈ data, |d.2.v| ≤ V) (fuel : Nat) (hf : data.length < fuel) :
    ∃ r0 r : TelBins, bintels argsort fuel data b = some (.ok r0) ∧ bintelsRounded rnd sum argsort fuel data b = some (.ok r) ∧ r.tel = r0.tel ∧
      CloseAverages ((4 * data.length + 16) * T / 2 ^ 53) r0.t r.t ∧ CloseAverages ((4 * data.length + 16) * V / 2 ^ 53) r0.v r.v ∧ CloseErrors ((2 * data.length + 8) / 2 ^ 53) r0.err r.err := by
  have hall : ∀ {P : Pt → Prop}, (∀ d ∈ data, P d.2) → ∀ p ∈ data.map Prod.snd, P p := by
    intro P hP p hp
    obtain ⟨d, hd, rfl⟩ := List.mem_map.1 hp
    exact hP d hd
  have one := fun (pts : List Pt) (h1 : ∀ p ∈ pts, p ∈ data.map Prod.snd) (h2 : pts.length ≤ data.length) (h3 : pts ≠ []) =>
    timebin_close rnd h sum hsum argsort ha (data.map Prod.snd) pts h1 (by simpa using h2) h3 b hb (hall ht) (hall he) (by simpa using hn) T V (hall hT) (hall hV) fuel (by simpa using hf)
  simp only [List.length_map] at one
  unfold bintels bintelsRounded
  by_cases h1 : (uniqOrder (data.map Prod.fst)).length = 1
  · rw [if_pos h1, if_pos h1]
    have hne : data.map Prod.snd ≠ [] := by
      intro h0
      have : data = [] := List.map_eq_nil_iff.1 h0
      subst this
      simp [uniqOrder] at h1
    obtain ⟨r0, r, k1, k2, k3, k4, k5⟩ := one (data.map Prod.snd) (fun _ hp => hp) (by simp) hne
    rw [k1, k2]
    exact ⟨_, _, rfl, rfl, by simp only [k3.length_eq], k3, k4, k5⟩
  · rw [if_neg h1, if_neg h1]
    have key : ∀ (tels : List String) (a0 a : TelBins), (∀ tel ∈ tels, ownData data tel ≠ []) → a.tel = a0.tel → CloseAverages ((4 * data.length + 16) * T / 2 ^ 53) a0.t a.t → CloseAverages ((4 * data.length + 16) * V / 2 ^ 53) a0.v a.v →
        CloseErrors ((2 * data.length + 8) / 2 ^ 53) a0.err a.err →
        ∃ r0 r : TelBins, bintelsLoop argsort fuel b data a0 tels = some (.ok r0) ∧ bintelsRoundedLoop rnd sum argsort fuel b data a tels = some (.ok r) ∧ r.tel = r0.tel ∧
          CloseAverages ((4 * data.length + 16) * T / 2 ^ 53) r0.t r.t ∧ CloseAverages ((4 * data.length + 16) * V / 2 ^ 53) r0.v r.v ∧ CloseErrors ((2 * data.length + 8) / 2 ^ 53) r0.err r.err := by
      intro tels
      induction tels with
      | nil => exact fun a0 a _ e1 e2 e3 e4 => ⟨a0, a, rfl, rfl, e1, e2, e3, e4⟩
      | cons tel tels ih =>
        intro a0 a hne e1 e2 e3 e4
        obtain ⟨r0, r, k1, k2, k3, k4, k5⟩ := one (ownData data tel) (ownData_sub data tel).1 (ownData_sub data tel).2 (hne tel (by simp))
        unfold bintelsLoop bintelsRoundedLoop bintelsStep bintelsRoundedStep
        rw [k1, k2]
        simp only
        exact ih _ _ (fun t ht' => hne t (by simp [ht'])) (by simp only [e1, k3.length_eq]) (forall₂_append e2 k3) (forall₂_append e3 k4) (forall₂_append e4 k5)
    refine key _ _ _ ?_ rfl .nil .nil .nil
    intro tel htel
    have hm : tel ∈ data.map Prod.fst := (mem_uniqOrder _ _).1 htel
    obtain ⟨d, hd, rfl⟩ := List.mem_map.1 hm
    refine List.ne_nil_of_mem (a := d.2) ?_
    unfold ownData
    exact List.mem_map.2 ⟨d, List.mem_filter.2 ⟨hd, by simp⟩, rfl⟩

/-- C193 in full is false: two observations of one telescope, the second at the rounded sum of the first time and the bin size, have two labels with rounding and one without, if the sum was rounded down (such numbers: see `C192_starts_violated`). -/
theorem C193_labels_violated (rnd : ℝ → ℝ) (sum : List ℝ → ℝ) (argsort : List Pt → List Pt) (ha : IsArgsort argsort) (tel : String) (t b v v' e e' : ℝ) (h1 : t < rnd (t + b)) (h2 : rnd (t + b) < t + b) (h3 : rnd (t + b) < rnd (rnd (t + b) + b)) :
    (∃ r, bintelsRounded rnd sum argsort 3 [(tel, ⟨t, v, e⟩), (tel, ⟨rnd (t + b), v', e'⟩)] b = some (.ok r) ∧ r.tel = [tel, tel]) ∧
    ∃ r, bintels argsort 3 [(tel, ⟨t, v, e⟩), (tel, ⟨rnd (t + b), v', e'⟩)] b = some (.ok r) ∧ r.tel = [tel] := by
  obtain ⟨⟨r, k1, k2⟩, r0, k3, k4⟩ := C192_starts_violated rnd sum argsort ha t b v v' e e' h1 h2 h3
  constructor
  · unfold bintelsRounded
    simp [uniqOrder, k1, k2]
  · unfold bintels
    simp [uniqOrder, k3, k4]

/-- The hypotheses of `C193_same_partial` can be met: two telescopes. -/
example : (∃ rnd sum argsort, RoundsToNearest rnd ∧ SumsRounded rnd sum ∧ IsArgsort argsort) ∧
    ∀ d ∈ [("j", (⟨2455000.5, 5, 1⟩ : Pt)), ("k", ⟨2455001.75, -3, 2⟩)], IsBinary (d.2.t + 0.5) ∧ 0 < d.2.err ∧ |d.2.t| ≤ 2455002 ∧ |d.2.v| ≤ 5 := by
  obtain ⟨rnd, h⟩ := exists_rounding
  obtain ⟨argsort, ha⟩ := exists_argsort
  refine ⟨⟨rnd, seqSum rnd, argsort, h, seqSum_sums rnd, ha⟩, ?_⟩
  intro p hp
  simp only [List.mem_cons, List.not_mem_nil, or_false] at hp
  rcases hp with rfl | rfl
  · exact ⟨⟨2455001, 0, by norm_num, by norm_num⟩, by norm_num, by norm_num [abs_le], by norm_num [abs_le]⟩
  · exact ⟨⟨9820009, -2, by norm_num, by norm_num⟩, by norm_num, by norm_num [abs_le], by norm_num [abs_le]⟩

end Radvel
