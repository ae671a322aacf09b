import Verif.Model.RoundedErr
import Verif.Props.RoundedPhase
import Verif.Props.Numbers

/-!
# Percentile errors in floating point (C187)
-/

namespace Radvel

/-- The rank of a quantile given in thousandths: the exact one, or the one before it if the exact product is a whole number. -/
theorem rank_cases (rnd : ℝ → ℝ) (h : RoundsToNearest rnd) (k n : Nat) (hk : k < 1000) (hn : n ≤ 10 ^ 9) :
    rankRounded rnd (k / 1000) n = k * n / 1000 ∨ (1000 ∣ k * n ∧ rankRounded rnd (k / 1000) n + 1 = k * n / 1000) := by
  have hc0 : (0 : ℝ) ≤ k / 1000 := by positivity
  have hc1 : (k : ℝ) / 1000 ≤ 1 := by
    rw [div_le_one (by norm_num)]
    exact_mod_cast hk.le
  have hn0 : (0 : ℝ) ≤ n := by positivity
  have hn1 : (n : ℝ) ≤ 10 ^ 9 := by exact_mod_cast hn
  have e1 := h.err ((k : ℝ) / 1000)
  have e2 := h.err (rnd ((k : ℝ) / 1000) * n)
  have r0 : 0 ≤ rnd ((k : ℝ) / 1000) := h.ge isBinary_zero hc0
  have r1 : rnd ((k : ℝ) / 1000) ≤ 1 := h.le isBinary_one hc1
  rw [abs_of_nonneg hc0] at e1
  rw [abs_of_nonneg (mul_nonneg r0 hn0)] at e2
  set x := rnd (rnd ((k : ℝ) / 1000) * n) with hx
  have x0 : 0 ≤ x := h.ge isBinary_zero (mul_nonneg r0 hn0)
  have herr : |x - k / 1000 * n| ≤ 1 / 10 ^ 6 := by
    have a1 : |rnd ((k : ℝ) / 1000) * n - k / 1000 * n| ≤ 1 / 2 ^ 53 * 10 ^ 9 := by
      rw [← sub_mul, abs_mul, abs_of_nonneg hn0, abs_sub_comm]
      refine mul_le_mul (e1.trans ?_) hn1 hn0 (by norm_num)
      exact div_le_div_of_nonneg_right hc1 (by norm_num)
    have a2 : |x - rnd ((k : ℝ) / 1000) * n| ≤ 10 ^ 9 / 2 ^ 53 := by
      rw [abs_sub_comm]
      refine e2.trans (div_le_div_of_nonneg_right ?_ (by norm_num))
      nlinarith
    have a3 := abs_sub_le x (rnd ((k : ℝ) / 1000) * n) (k / 1000 * n)
    have a4 : (10 : ℝ) ^ 9 / 2 ^ 53 + 1 / 2 ^ 53 * 10 ^ 9 ≤ 1 / 10 ^ 6 := by norm_num
    linarith
  obtain ⟨b1, b2⟩ := abs_le.1 herr
  have hq : (k : ℝ) / 1000 * n = (k * n / 1000 : ℕ) + ((k * n % 1000 : ℕ) : ℝ) / 1000 := by
    have : k * n = 1000 * (k * n / 1000) + k * n % 1000 := (Nat.div_add_mod _ _).symm
    have h2 : ((k * n : ℕ) : ℝ) = 1000 * (k * n / 1000 : ℕ) + (k * n % 1000 : ℕ) := by exact_mod_cast this
    push_cast at h2
    rw [div_mul_eq_mul_div, h2]
    ring
  have hr1 : k * n % 1000 < 1000 := Nat.mod_lt _ (by norm_num)
  have hr1' : ((k * n % 1000 : ℕ) : ℝ) ≤ 999 := by exact_mod_cast (by omega : k * n % 1000 ≤ 999)
  rw [hq] at b1 b2
  have hup : x < (k * n / 1000 : ℕ) + 1 := by
    have : ((k * n % 1000 : ℕ) : ℝ) / 1000 ≤ 999 / 1000 := div_le_div_of_nonneg_right hr1' (by norm_num)
    norm_num at b2 this ⊢
    linarith
  by_cases hz : k * n % 1000 = 0
  · rw [hz] at b1
    by_cases hxq : ((k * n / 1000 : ℕ) : ℝ) ≤ x
    · left
      exact (Nat.floor_eq_iff x0).2 ⟨hxq, hup⟩
    · right
      refine ⟨Nat.dvd_of_mod_eq_zero hz, ?_⟩
      push Not at hxq
      have hpos : 1 ≤ k * n / 1000 := by
        by_contra hc
        have : k * n / 1000 = 0 := by omega
        rw [this] at hxq
        norm_num at hxq
        linarith
      have : rankRounded rnd (k / 1000) n = k * n / 1000 - 1 := by
        refine (Nat.floor_eq_iff x0).2 ⟨?_, ?_⟩
        · rw [Nat.cast_sub hpos]
          norm_num at b1 ⊢
          linarith
        · rw [Nat.cast_sub hpos]
          norm_num
          linarith
      omega
  · left
    have hr : (1 : ℝ) ≤ ((k * n % 1000 : ℕ) : ℝ) := by exact_mod_cast (by omega : 1 ≤ k * n % 1000)
    refine (Nat.floor_eq_iff x0).2 ⟨?_, hup⟩
    have : (1 : ℝ) / 1000 ≤ ((k * n % 1000 : ℕ) : ℝ) / 1000 := div_le_div_of_nonneg_right hr (by norm_num)
    norm_num at b1 this ⊢
    linarith

/-- Different floating-point numbers are at least a unit in the last place apart. -/
theorem IsBinary.gap {r N : ℝ} (hr : IsBinary r) (hN : IsBinary N) (h : r < N) : N ≤ (2 ^ 53 + 1) * (N - r) := by
  obtain ⟨m, e, hm, rfl⟩ := hr
  obtain ⟨m', e', hm', rfl⟩ := hN
  have c1 : ∀ m : ℤ, |m| ≤ 2 ^ 53 → (m : ℝ) ≤ 2 ^ 53 := fun m hm => by exact_mod_cast (abs_le.1 hm).2
  have step : ∀ f, f ≤ e → f ≤ e' → (2 : ℝ) ^ f ≤ m' * 2 ^ e' - m * 2 ^ e := by
    intro f h1 h2
    obtain ⟨d, hd⟩ := (OnGrid.finer ⟨m', rfl⟩ h2).sub (OnGrid.finer ⟨m, rfl⟩ h1 : OnGrid f (m * 2 ^ e : ℝ))
    have hf := two_zpow_pos f
    have d1 : 0 < d := by
      have : (0 : ℝ) < d * 2 ^ f := by rw [← hd]; linarith
      exact_mod_cast (pos_iff_pos_of_mul_pos this).2 hf
    rw [hd]
    have : (1 : ℝ) ≤ d := by exact_mod_cast d1
    nlinarith
  rcases le_or_gt e' e with hle | hlt
  · have s := step e' hle le_rfl
    have hf := two_zpow_pos e'
    have := mul_le_mul_of_nonneg_right (c1 m' hm') hf.le
    nlinarith
  · have s := step e le_rfl hlt.le
    have hf := two_zpow_pos e
    have := mul_le_mul_of_nonneg_right (c1 m hm) hf.le
    nlinarith

/-- A quantile in thousandths whose floating-point number `c` is closer to it than a third of a unit in the last place has the exact rank. -/
theorem rank_exact (rnd : ℝ → ℝ) (h : RoundsToNearest rnd) (k n : Nat) (hk : k < 1000) (hk' : Nat.Coprime 1000 k) (hn : n ≤ 10 ^ 9) (c : ℝ) (hc : IsBinary c) (hd : |(k : ℝ) / 1000 - c| ≤ k / 1000 / (3 * 2 ^ 53)) :
    rankRounded rnd (k / 1000) n = k * n / 1000 := by
  rcases rank_cases rnd h k n hk hn with r | ⟨r, r'⟩
  · exact r
  exfalso
  obtain ⟨m, rfl⟩ := hk'.dvd_of_dvd_mul_left r
  have e : k * (1000 * m) / 1000 = k * m := by
    rw [show k * (1000 * m) = 1000 * (k * m) by ring, Nat.mul_div_cancel_left _ (by norm_num)]
  rw [e] at r'
  have hN : IsBinary ((k * m : ℕ) : ℝ) := by
    refine ⟨(k * m : ℕ), 0, ?_, by norm_num⟩
    have : k * m ≤ 1000 * 10 ^ 6 := Nat.mul_le_mul hk.le (by omega)
    rw [abs_of_nonneg (by positivity)]
    have h3 : ((k * m : ℕ) : ℤ) ≤ 1000 * 10 ^ 6 := by exact_mod_cast this
    exact h3.trans (by norm_num)
  have hNpos : (0 : ℝ) < (k * m : ℕ) := by exact_mod_cast (by omega : 0 < k * m)
  have hm0 : (0 : ℝ) ≤ m := by positivity
  have hlow := (abs_le.1 ((h.nearest _ c hc).trans hd)).2
  have hy : ((k * m : ℕ) : ℝ) - rnd ((k : ℝ) / 1000) * (1000 * m : ℕ) ≤ (k * m : ℕ) / (3 * 2 ^ 53) := by
    have := mul_le_mul_of_nonneg_right hlow (mul_nonneg (by norm_num : (0 : ℝ) ≤ 1000) hm0)
    push_cast
    have e1 : ((k : ℝ) / 1000 - rnd (k / 1000)) * (1000 * m) = k * m - rnd (k / 1000) * (1000 * m) := by ring
    have e2 : (k : ℝ) / 1000 / (3 * 2 ^ 53) * (1000 * m) = k * m / (3 * 2 ^ 53) := by ring
    rw [e1, e2] at this
    exact this
  have hlt : rnd (rnd ((k : ℝ) / 1000) * (1000 * m : ℕ)) < (k * m : ℕ) := by
    by_contra hc2
    push Not at hc2
    have := Nat.le_floor hc2
    unfold rankRounded at r'
    omega
  have g := (h.binary _).gap hN hlt
  have near := h.nearest (rnd ((k : ℝ) / 1000) * (1000 * m : ℕ)) _ hN
  set y := rnd ((k : ℝ) / 1000) * (1000 * m : ℕ) with hy'
  set N := ((k * m : ℕ) : ℝ) with hN'
  have hyN : y < N := by
    by_contra hc3
    push Not at hc3
    exact absurd (h.ge hN hc3) (not_le.2 hlt)
  rw [abs_of_neg (by linarith : y - N < 0)] at near
  have n2 := (abs_le.1 near).2
  have g2 : N ≤ (2 ^ 53 + 1) * (2 * (N / (3 * 2 ^ 53))) := g.trans (mul_le_mul_of_nonneg_left (by linarith) (by norm_num))
  norm_num at g2
  linarith

theorem IsBinary.double {x : ℝ} (h : IsBinary x) : IsBinary (2 * x) := by
  obtain ⟨m, e, hm, rfl⟩ := h
  exact ⟨m, e + 1, hm, by rw [zpow_add₀ (by norm_num), zpow_one]; ring⟩

/-- The rounded mean of two floating-point numbers lies between them. -/
theorem RoundsToNearest.mean {rnd : ℝ → ℝ} (h : RoundsToNearest rnd) {a b : ℝ} (ha : IsBinary a) (hb : IsBinary b) (hab : a ≤ b) : a ≤ rnd (rnd (a + b) / 2) ∧ rnd (rnd (a + b) / 2) ≤ b := by
  have h1 := h.ge ha.double (show 2 * a ≤ a + b by linarith)
  have h2 := h.le hb.double (show a + b ≤ 2 * b by linarith)
  exact ⟨h.ge ha (by linarith), h.le hb (by linarith)⟩

/-- C187: for samples of up to 10⁹ floating-point numbers, sorted as `t`, `geterr` returns; its value lies between the two middle elements, the distances go to the elements at exactly 15.9 and 84.1 percent of the length, are rounded once, and are not negative. -/
theorem C187_errors (rnd : ℝ → ℝ) (h : RoundsToNearest rnd) (vec t : List ℝ) (hne : vec ≠ []) (hp : t.Perm vec) (ht : t.Pairwise (· ≤ ·)) (hb : ∀ x ∈ vec, IsBinary x) (hn : vec.length ≤ 10 ^ 9) :
    ∃ med a b, geterrRounded rnd vec = .ok (med, rnd (med - a), rnd (b - med)) ∧ a ≤ med ∧ med ≤ b ∧ 0 ≤ rnd (med - a) ∧ 0 ≤ rnd (b - med) ∧
      t.getD ((t.length - 1) / 2) 0 ≤ med ∧ med ≤ t.getD (t.length / 2) 0 ∧ (t.length % 2 = 0 → med = rnd (rnd (t.getD (t.length / 2 - 1) 0 + t.getD (t.length / 2) 0) / 2)) ∧
      t[159 * t.length / 1000]? = some a ∧ t[841 * t.length / 1000]? = some b := by
  have hs : vec.mergeSort (fun a b => decide (a ≤ b)) = t :=
    List.Perm.eq_of_pairwise (fun a b _ _ h1 h2 => le_antisymm h1 h2) (sorted_mergeSort vec) ht ((List.mergeSort_perm _ _).trans hp.symm)
  have hl : 0 < t.length := by rw [hp.length_eq]; exact List.length_pos_iff.2 hne
  have hn' : t.length ≤ 10 ^ 9 := by rw [hp.length_eq]; exact hn
  have hbt : ∀ x ∈ t, IsBinary x := fun x hx => hb x (hp.subset hx)
  have hmono : ∀ i j (hi : i < t.length) (hj : j < t.length), i ≤ j → t[i] ≤ t[j] := by
    intro i j hi hj hij
    rcases hij.lt_or_eq with hlt | rfl
    · exact List.pairwise_iff_getElem.1 ht i j hi hj hlt
    · exact le_refl _
  have c1 : (0.159 : ℝ) = ((159 : ℕ) : ℝ) / 1000 := by norm_num
  have c2 : (0.841 : ℝ) = ((841 : ℕ) : ℝ) / 1000 := by norm_num
  have r1 := rank_exact rnd h 159 t.length (by norm_num) (by decide) hn' (5728578726015271 * 2 ^ (-55 : ℤ)) ⟨5728578726015271, -55, by norm_num, by norm_num⟩ (by norm_num [abs_le])
  have r2 := rank_exact rnd h 841 t.length (by norm_num) (by decide) hn' (3787527286618587 * 2 ^ (-52 : ℤ)) ⟨3787527286618587, -52, by norm_num, by norm_num⟩ (by norm_num [abs_le])
  rw [← c1] at r1
  rw [← c2] at r2
  set i := rankRounded rnd 0.159 t.length with hi
  set j := rankRounded rnd 0.841 t.length with hj
  have hil : i ≤ (t.length - 1) / 2 := by omega
  have hjl : t.length / 2 ≤ j ∧ j < t.length := by omega
  have hm1 : (t.length - 1) / 2 < t.length := by omega
  have hm2 : t.length / 2 < t.length := by omega
  have hmed : t[(t.length - 1) / 2] ≤ medianRounded rnd vec ∧ medianRounded rnd vec ≤ t[t.length / 2] := by
    unfold medianRounded
    simp only [hs]
    by_cases hodd : t.length % 2 = 1
    · rw [if_pos hodd, List.getD_eq_getElem _ _ hm2]
      exact ⟨hmono _ _ hm1 hm2 (by omega), le_refl _⟩
    · have e : t.length / 2 - 1 = (t.length - 1) / 2 := by omega
      rw [if_neg hodd, e, List.getD_eq_getElem _ _ hm2, List.getD_eq_getElem _ _ hm1]
      exact h.mean (hbt _ (List.getElem_mem _)) (hbt _ (List.getElem_mem _)) (hmono _ _ hm1 hm2 (by omega))
  have hi' : i < t.length := by omega
  have ha : t[i] ≤ medianRounded rnd vec := (hmono _ _ hi' hm1 hil).trans hmed.1
  have hb' : medianRounded rnd vec ≤ t[j]'hjl.2 := hmed.2.trans (hmono _ _ hm2 hjl.2 hjl.1)
  refine ⟨medianRounded rnd vec, t[i], t[j]'hjl.2, ?_, ha, hb', h.ge isBinary_zero (by linarith), h.ge isBinary_zero (by linarith), ?_, ?_, ?_, ?_, ?_⟩
  · unfold geterrRounded
    simp only [hs]
    rw [← hi, ← hj]
    unfold pyIndex
    rw [List.getElem?_eq_getElem hi', List.getElem?_eq_getElem hjl.2]
  · rw [List.getD_eq_getElem _ _ hm1]; exact hmed.1
  · rw [List.getD_eq_getElem _ _ hm2]; exact hmed.2
  · intro he
    unfold medianRounded
    simp only [hs]
    rw [if_neg (by omega)]
  · rw [← r1]; exact List.getElem?_eq_getElem hi'
  · rw [← r2]; exact List.getElem?_eq_getElem hjl.2

/-- The hypotheses can be met. -/
example : (∃ rnd, RoundsToNearest rnd) ∧ [(1 : ℝ), 2, 2.5].Perm [2.5, 1, 2] ∧ [(1 : ℝ), 2, 2.5].Pairwise (· ≤ ·) ∧ ∀ x ∈ [(2.5 : ℝ), 1, 2], IsBinary x := by
  refine ⟨exists_rounding, ?_, by norm_num, ?_⟩
  · exact (List.perm_append_comm (l₁ := [(1 : ℝ), 2]) (l₂ := [2.5]))
  · intro x hx
    simp only [List.mem_cons, List.not_mem_nil, or_false] at hx
    rcases hx with rfl | rfl | rfl
    · exact ⟨5, -1, by norm_num, by norm_num⟩
    · exact isBinary_one
    · exact isBinary_two

end Radvel
