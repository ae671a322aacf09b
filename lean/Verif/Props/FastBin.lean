import Verif.Spec.FastBin
import Mathlib.Tactic.Linarith
import Mathlib.Tactic.FieldSimp
import Mathlib.Tactic.Ring
import Mathlib.Tactic.NormNum
import Mathlib.Tactic.Positivity
import Mathlib.Algebra.Order.Floor.Ring
import Mathlib.Algebra.Order.Archimedean.Basic

/-!
# C134: binned points
-/

namespace Radvel
open Real

theorem histRange_spec (pts : List XY) (h : pts ≠ []) : DataRange pts (histRange pts).1 (histRange pts).2 := by
  have hne : pts.map XY.x ≠ [] := by simpa using h
  obtain ⟨a, ha⟩ := Option.isSome_iff_exists.1 (List.isSome_min?_of_ne_nil hne)
  obtain ⟨b, hb⟩ := Option.isSome_iff_exists.1 (List.isSome_max?_of_ne_nil hne)
  obtain ⟨ha1, ha2⟩ := List.min?_eq_some_iff.1 ha
  obtain ⟨hb1, hb2⟩ := List.max?_eq_some_iff.1 hb
  obtain ⟨p, hp, rfl⟩ := List.mem_map.1 ha1
  obtain ⟨q, hq, rfl⟩ := List.mem_map.1 hb1
  refine ⟨p.x, q.x, ⟨p, hp, rfl⟩, ⟨q, hq, rfl⟩, fun r hr => ⟨ha2 _ (List.mem_map_of_mem hr), hb2 _ (List.mem_map_of_mem hr)⟩, ?_⟩
  unfold histRange
  rw [ha, hb]
  simp only
  by_cases he : p.x = q.x
  · right
    rw [if_pos he]
    exact ⟨he, by norm_num, by rw [← he]; norm_num⟩
  · left
    rw [if_neg he]
    exact ⟨lt_of_le_of_ne (ha2 _ (List.mem_map_of_mem hq)) he, rfl, rfl⟩

theorem DataRange.lt {pts : List XY} {lo hi : ℝ} (h : DataRange pts lo hi) : lo < hi := by
  obtain ⟨a, b, _, _, _, ⟨h1, rfl, rfl⟩ | ⟨_, rfl, rfl⟩⟩ := h
  · exact h1
  · linarith

theorem DataRange.mem {pts : List XY} {lo hi : ℝ} (h : DataRange pts lo hi) (p : XY) (hp : p ∈ pts) : lo ≤ p.x ∧ p.x ≤ hi := by
  obtain ⟨a, b, _, _, h0, ⟨h1, rfl, rfl⟩ | ⟨rfl, rfl, rfl⟩⟩ := h
  · exact h0 p hp
  · have := h0 p hp
    constructor <;> linarith

theorem histBin_eq (pts : List XY) (n i : Nat) (hn : 0 < n) : histBin pts n i = partOf pts (histRange pts).1 (histRange pts).2 n i := by
  unfold histBin partOf
  apply List.filter_congr
  intro p _
  have hn' : (n : ℝ) ≠ 0 := by exact_mod_cast hn.ne'
  have e1 : ∀ j : Nat, histEdge (histRange pts) n j = (histRange pts).1 + ((histRange pts).2 - (histRange pts).1) * j / n := by
    intro j; unfold histEdge; ring
  rw [e1, e1]
  have e2 : i + 1 = n → (histRange pts).1 + ((histRange pts).2 - (histRange pts).1) * ((i + 1 : Nat) : ℝ) / n = (histRange pts).2 := by
    intro h
    rw [h]
    field_simp
    ring
  congr 1
  unfold InPart
  apply propext
  apply and_congr Iff.rfl
  apply or_congr
  · push_cast; exact Iff.rfl
  · constructor
    · rintro ⟨h1, h2⟩; exact ⟨h1, by rw [h2, e2 h1]⟩
    · rintro ⟨h1, h2⟩; exact ⟨h1, by rw [h2, e2 h1]⟩

/-- C134: every point is in exactly one of the parts. -/
theorem C134_partition (lo hi : ℝ) (h : lo < hi) (n : Nat) (hn : 0 < n) (x : ℝ) (h1 : lo ≤ x) (h2 : x ≤ hi) : ∃! i, i < n ∧ InPart lo hi n i x := by
  have hn' : (0 : ℝ) < n := by exact_mod_cast hn
  have hw : 0 < hi - lo := by linarith
  -- position in units of a part
  set z := (x - lo) * n / (hi - lo) with hz
  have hx : x = lo + (hi - lo) * z / n := by rw [hz]; field_simp; ring
  have hz0 : 0 ≤ z := by apply div_nonneg (mul_nonneg (by linarith) hn'.le) hw.le
  have hzn : z ≤ n := by rw [hz, div_le_iff₀ hw]; nlinarith
  have hle : ∀ u v : ℝ, lo + (hi - lo) * u / n ≤ lo + (hi - lo) * v / n ↔ u ≤ v := by
    intro u v
    rw [add_le_add_iff_left, div_le_div_iff_of_pos_right hn', mul_le_mul_iff_of_pos_left hw]
  have hlt : ∀ u v : ℝ, lo + (hi - lo) * u / n < lo + (hi - lo) * v / n ↔ u < v := by
    intro u v
    rw [← not_le, hle, not_le]
  have hhi : hi = lo + (hi - lo) * (n : ℝ) / n := by field_simp; ring
  have hpart : ∀ i : Nat, InPart lo hi n i x ↔ ((i : ℝ) ≤ z ∧ (z < i + 1 ∨ (i + 1 = n ∧ z = n))) := by
    intro i
    unfold InPart
    have e : (x = hi) ↔ z = n := by
      constructor
      · intro hxh
        rw [hz, hxh]
        field_simp
      · intro hzn
        rw [hx, hzn, ← hhi]
    rw [e]
    conv_lhs => rw [hx]
    rw [hle, hlt]
  rcases hzn.lt_or_eq with hlt' | heq
  · refine ⟨⌊z⌋₊, ⟨(Nat.floor_lt hz0).2 hlt', (hpart _).2 ⟨Nat.floor_le hz0, .inl (Nat.lt_floor_add_one z)⟩⟩, ?_⟩
    rintro j ⟨hj, hpj⟩
    obtain ⟨a1, a2⟩ := (hpart j).1 hpj
    rcases a2 with a2 | ⟨_, a2⟩
    · exact ((Nat.floor_eq_iff hz0).2 ⟨a1, a2⟩).symm
    · exact absurd a2 hlt'.ne
  · refine ⟨n - 1, ⟨by omega, (hpart _).2 ⟨?_, .inr ⟨by omega, heq⟩⟩⟩, ?_⟩
    · rw [heq]; exact_mod_cast Nat.sub_le n 1
    · rintro j ⟨hj, hpj⟩
      obtain ⟨a1, a2⟩ := (hpart j).1 hpj
      rcases a2 with a2 | ⟨a2, _⟩
      · rw [heq] at a2
        have : n < j + 1 := by exact_mod_cast a2
        omega
      · omega

theorem stdErr_eq (l : List XY) (h : l ≠ []) :
    √((l.map (fun p => p.y * p.y)).sum / l.length - (l.map XY.y).sum / l.length * ((l.map XY.y).sum / l.length)) / √(l.length : ℝ) = stdErrY l := by
  unfold stdErrY
  have hn : (l.length : ℝ) ≠ 0 := by
    have := List.length_pos_iff.2 h
    exact_mod_cast this.ne'
  have key : ∀ (m : ℝ) (l : List XY), (l.map (fun p => (p.y - m) ^ 2)).sum = (l.map (fun p => p.y * p.y)).sum - 2 * m * (l.map XY.y).sum + l.length * m ^ 2 := by
    intro m l
    induction l with
    | nil => simp
    | cons a t ih => simp only [List.map_cons, List.sum_cons, ih, List.length_cons]; push_cast; ring
  rw [key]
  congr 2
  unfold meanY
  field_simp
  ring

theorem binXY_spec (pts : List XY) (n i : Nat) (hn : 0 < n) (h : histBin pts n i ≠ []) : ShowsPart pts (histRange pts).1 (histRange pts).2 n i (binXY pts n i) := by
  have hn' : (n : ℝ) ≠ 0 := by exact_mod_cast hn.ne'
  have he := histBin_eq pts n i hn
  refine ⟨?_, ?_, ?_⟩
  · show (histEdge (histRange pts) n (i + 1) + histEdge (histRange pts) n i) / 2 = _
    unfold histEdge
    push_cast
    field_simp
    ring
  · show ((histBin pts n i).map XY.y).sum / ((histBin pts n i).length : ℝ) = _
    rw [he]; rfl
  · show √(((histBin pts n i).map (fun p => p.y * p.y)).sum / (histBin pts n i).length - ((histBin pts n i).map XY.y).sum / (histBin pts n i).length * (((histBin pts n i).map XY.y).sum / (histBin pts n i).length)) / √((histBin pts n i).length : ℝ) = _
    rw [stdErr_eq _ h, he]

/-- C134: what `fastbin` returns are, in order, the means and standard errors of the parts with at least three points and a positive centre (missing: parts with a centre of zero or less, `C134_left_violated`). -/
theorem C134_shown_partial (pts : List XY) (h : pts ≠ []) (n : Nat) (hn : 0 < n) : ∃ lo hi, DataRange pts lo hi ∧ (∀ p ∈ pts, ∃! i, i < n ∧ InPart lo hi n i p.x) ∧
    List.Pairwise (fun a b => a.t < b.t) (fastbin pts n) ∧ ∀ b, b ∈ fastbin pts n ↔ ∃ i < n, 3 ≤ (partOf pts lo hi n i).length ∧ 0 < lo + (hi - lo) * (i + 1 / 2) / n ∧ ShowsPart pts lo hi n i b := by
  have hr := histRange_spec pts h
  have hlt := hr.lt
  have hn' : (0 : ℝ) < n := by exact_mod_cast hn
  refine ⟨_, _, hr, fun p hp => C134_partition _ _ hlt n hn _ (hr.mem p hp).1 (hr.mem p hp).2, ?_, ?_⟩
  · unfold fastbin
    apply List.Pairwise.filter
    rw [List.pairwise_map]
    apply List.Pairwise.imp_of_mem (R := (· < ·)) _ (List.Pairwise.filter _ List.pairwise_lt_range)
    intro i j hi hj hij
    simp only [List.mem_filter, decide_eq_true_eq] at hi hj
    rw [(binXY_spec pts n i hn (by intro hc; rw [hc] at hi; simp at hi)).mid, (binXY_spec pts n j hn (by intro hc; rw [hc] at hj; simp at hj)).mid]
    have hij' : (i : ℝ) < j := by exact_mod_cast hij
    rw [add_lt_add_iff_left, div_lt_div_iff_of_pos_right hn']
    apply mul_lt_mul_of_pos_left _ (by linarith)
    linarith
  · intro b
    unfold fastbin
    simp only [List.mem_filter, List.mem_map, List.mem_range, decide_eq_true_eq]
    constructor
    · rintro ⟨⟨i, ⟨hi, h3⟩, rfl⟩, hpos⟩
      have hs := binXY_spec pts n i hn (by intro hc; rw [hc] at h3; simp at h3)
      exact ⟨i, hi, by rw [← histBin_eq pts n i hn]; exact h3, by rw [← hs.mid]; exact hpos, hs⟩
    · rintro ⟨i, hi, h3, hpos, hb⟩
      rw [← histBin_eq pts n i hn] at h3
      have hs := binXY_spec pts n i hn (by intro hc; rw [hc] at h3; simp at h3)
      have : b = binXY pts n i := by
        obtain ⟨b1, b2, b3⟩ := b
        have e1 := hb.mid.trans hs.mid.symm
        have e2 := hb.dat.trans hs.dat.symm
        have e3 := hb.err.trans hs.err.symm
        simp only at e1 e2 e3
        rw [e1, e2, e3]
      rw [this]
      exact ⟨⟨i, ⟨hi, h3⟩, rfl⟩, by rw [hs.mid]; exact hpos⟩

/-- C134 in full is false: parts whose centre is zero or negative are left out, however many points they have; if no point is positive, nothing is returned. -/
theorem C134_left_violated (pts : List XY) (h : pts ≠ []) (n : Nat) (hn : 0 < n) (hneg : ∀ p ∈ pts, p.x < 0) (hdiff : ∃ p ∈ pts, ∃ q ∈ pts, p.x ≠ q.x) : fastbin pts n = [] := by
  obtain ⟨lo, hi, hr, _, _, hb⟩ := C134_shown_partial pts h n hn
  by_contra hne
  obtain ⟨b, hmem⟩ := List.exists_mem_of_ne_nil _ hne
  obtain ⟨i, hi', _, hpos, _⟩ := (hb b).1 hmem
  have hhi : hi < 0 ∧ lo < hi := by
    obtain ⟨a, c, ⟨p, hp, rfl⟩, ⟨q, hq, rfl⟩, h0, ⟨h1, rfl, rfl⟩ | ⟨h1, rfl, rfl⟩⟩ := hr
    · exact ⟨hneg q hq, h1⟩
    · exfalso
      obtain ⟨u, hu, v, hv, huv⟩ := hdiff
      have := h0 u hu
      have := h0 v hv
      apply huv
      linarith
  have hn' : (0 : ℝ) < n := by exact_mod_cast hn
  have hi2 : (i : ℝ) + 1 / 2 ≤ n := by
    have : (i : ℝ) + 1 ≤ n := by exact_mod_cast hi'
    linarith
  have : (hi - lo) * ((i : ℝ) + 1 / 2) / n ≤ hi - lo := by
    rw [div_le_iff₀ hn']
    exact mul_le_mul_of_nonneg_left hi2 (by linarith [hhi.2])
  linarith [hhi.1]

/-- C134 for points that are not negative and not all zero, as in the phase panels: nothing with at least three points is left out. -/
theorem C134_complete (pts : List XY) (n : Nat) (hn : 0 < n) (h0 : ∀ p ∈ pts, 0 ≤ p.x) (hpos : ∃ p ∈ pts, ∃ q ∈ pts, p.x ≠ q.x) : ∃ lo hi, DataRange pts lo hi ∧
    ∀ i < n, 3 ≤ (partOf pts lo hi n i).length → ∃ b ∈ fastbin pts n, ShowsPart pts lo hi n i b := by
  have h : pts ≠ [] := by
    obtain ⟨p, hp, _⟩ := hpos
    exact List.ne_nil_of_mem hp
  obtain ⟨lo, hi, hr, _, _, hb⟩ := C134_shown_partial pts h n hn
  refine ⟨lo, hi, hr, ?_⟩
  intro i hi' h3
  have hlo : 0 ≤ lo := by
    obtain ⟨a, c, ⟨p, hp, rfl⟩, ⟨q, hq, rfl⟩, hall, ⟨h1, rfl, rfl⟩ | ⟨h1, rfl, rfl⟩⟩ := hr
    · exact h0 p hp
    · exfalso
      obtain ⟨u, hu, v, hv, huv⟩ := hpos
      have := hall u hu
      have := hall v hv
      apply huv
      linarith
  have hlt := hr.lt
  have hn' : (0 : ℝ) < n := by exact_mod_cast hn
  refine ⟨⟨lo + (hi - lo) * (i + 1 / 2) / n, meanY (partOf pts lo hi n i), stdErrY (partOf pts lo hi n i)⟩, (hb _).2 ⟨i, hi', h3, ?_, ⟨rfl, rfl, rfl⟩⟩, ⟨rfl, rfl, rfl⟩⟩
  have : 0 < (hi - lo) * ((i : ℝ) + 1 / 2) / n := by
    have : 0 < hi - lo := by linarith
    positivity
  linarith

/-- Non-vacuity: three points at 0 and one at 1; three at -2 and one at -1. -/
example : (∃ pts : List XY, (∀ p ∈ pts, 0 ≤ p.x) ∧ (∃ p ∈ pts, ∃ q ∈ pts, p.x ≠ q.x) ∧ ∃ b, b ∈ fastbin pts 2) ∧
    ∃ pts : List XY, pts ≠ [] ∧ (∀ p ∈ pts, p.x < 0) ∧ (∃ p ∈ pts, ∃ q ∈ pts, p.x ≠ q.x) ∧ ∃ lo hi, DataRange pts lo hi ∧ 3 ≤ (partOf pts lo hi 2 0).length := by
  constructor
  · have h0 : ∀ p ∈ [XY.mk 0 1, ⟨0, 2⟩, ⟨0, 3⟩, ⟨1, 5⟩], 0 ≤ p.x := by simp
    have h1 : ∃ p ∈ [XY.mk 0 1, ⟨0, 2⟩, ⟨0, 3⟩, ⟨1, 5⟩], ∃ q ∈ [XY.mk 0 1, ⟨0, 2⟩, ⟨0, 3⟩, ⟨1, 5⟩], p.x ≠ q.x := ⟨⟨0, 1⟩, by simp, ⟨1, 5⟩, by simp, by simp⟩
    refine ⟨_, h0, h1, ?_⟩
    obtain ⟨lo, hi, ⟨a, b, ⟨p, hp, rfl⟩, ⟨q, hq, rfl⟩, hr, hr'⟩, h2⟩ := C134_complete _ 2 (by norm_num) h0 h1
    have e1 := (hr ⟨0, 1⟩ (by simp)).1
    have e2 := (hr ⟨1, 5⟩ (by simp)).2
    have e3 := h0 p hp
    have e4 : q.x ≤ 1 := by
      have : ∀ q ∈ [XY.mk 0 1, ⟨0, 2⟩, ⟨0, 3⟩, ⟨1, 5⟩], q.x ≤ 1 := by simp
      exact this q hq
    simp only at e1 e2
    rcases hr' with ⟨_, rfl, rfl⟩ | ⟨h4, _, _⟩
    · have hp0 : p.x = 0 := by linarith
      have hq1 : q.x = 1 := by linarith
      obtain ⟨b, hb, _⟩ := h2 0 (by norm_num) (by
        unfold partOf
        rw [hp0, hq1]
        simp [InPart, List.filter_cons])
      exact ⟨b, hb⟩
    · linarith
  · refine ⟨[⟨-2, 1⟩, ⟨-2, 2⟩, ⟨-2, 3⟩, ⟨-1, 5⟩], by simp, by simp, ⟨⟨-2, 1⟩, by simp, ⟨-1, 5⟩, by simp, by norm_num⟩, -2, -1, ⟨-2, -1, ⟨⟨-2, 1⟩, by simp, rfl⟩, ⟨⟨-1, 5⟩, by simp, rfl⟩, by simp, .inl ⟨by norm_num, rfl, rfl⟩⟩, ?_⟩
    unfold partOf
    have h1 : InPart (-2) (-1) 2 0 (-2) := by unfold InPart; norm_num
    simp [h1, List.filter_cons]

end Radvel
