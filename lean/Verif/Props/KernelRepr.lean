import Verif.Model.KernelRepr
import Verif.Props.PriorRepr
import Verif.Props.RoundedPhase
import Mathlib.Data.Set.Countable

/-!
# Printed kernels (C191)
-/

namespace Radvel

/-- The texts of the numbers in `D` (think of doubles) contain no comma, and different numbers have different texts. -/
def NumberTexts (D : ℝ → Prop) (fmt : ℝ → Text) : Prop := (∀ x, D x → ',' ∉ fmt x) ∧ ∀ x y, D x → D y → fmt x = fmt y → x = y

/-- The values of the hyperparameters are such numbers. -/
def Kernel.Holds (D : ℝ → Prop) (k : Kernel) : Prop := ∀ slot ∈ k.kind.slots, D (k.par (String.ofList slot))

/-- C191: kernels printed alike are of the same class and have the same value of every hyperparameter. -/
theorem C191_determined (D : ℝ → Prop) (fmt : ℝ → Text) (hf : NumberTexts D fmt) (k k' : Kernel) (hD : k.Holds D) (hD' : k'.Holds D) (h : k.repr fmt = k'.repr fmt) : k.kind = k'.kind ∧ ∀ slot ∈ k.kind.slots, k.par (String.ofList slot) = k'.par (String.ofList slot) := by
  obtain ⟨hc, hi⟩ := hf
  unfold Kernel.repr at h
  cases hk : k.kind <;> cases hk' : k'.kind <;> rw [hk, hk'] at h <;> simp only at h
  case sqExp.sqExp =>
    unfold Kernel.Holds at hD hD'
    rw [hk] at hD
    rw [hk'] at hD'
    have dl : D (k.par "gp_length") := hD "gp_length".toList (by simp [KernelKind.slots])
    have dl' : D (k'.par "gp_length") := hD' "gp_length".toList (by simp [KernelKind.slots])
    have da : D (k.par "gp_amp") := hD "gp_amp".toList (by simp [KernelKind.slots])
    have da' : D (k'.par "gp_amp") := hD' "gp_amp".toList (by simp [KernelKind.slots])
    have h' : fmt (k.par "gp_length") ++ ',' :: (" amp: ".toList ++ fmt (k.par "gp_amp")) = fmt (k'.par "gp_length") ++ ',' :: (" amp: ".toList ++ fmt (k'.par "gp_amp")) := by
      rw [List.append_assoc, List.append_assoc, List.append_assoc, List.append_assoc] at h
      exact List.append_cancel_left h
    obtain ⟨a, h'⟩ := cut_inj (hc _ dl) (hc _ dl') h'
    have b := List.append_cancel_left h'
    refine ⟨rfl, ?_⟩
    intro slot hs
    simp only [KernelKind.slots, List.mem_cons, List.not_mem_nil, or_false] at hs
    rcases hs with rfl | rfl
    · exact hi _ _ dl dl' a
    · exact hi _ _ da da' b
  case per.per =>
    unfold Kernel.Holds at hD hD'
    rw [hk] at hD
    rw [hk'] at hD'
    have dl : D (k.par "gp_length") := hD "gp_length".toList (by simp [KernelKind.slots])
    have dl' : D (k'.par "gp_length") := hD' "gp_length".toList (by simp [KernelKind.slots])
    have da : D (k.par "gp_amp") := hD "gp_amp".toList (by simp [KernelKind.slots])
    have da' : D (k'.par "gp_amp") := hD' "gp_amp".toList (by simp [KernelKind.slots])
    have dp : D (k.par "gp_per") := hD "gp_per".toList (by simp [KernelKind.slots])
    have dp' : D (k'.par "gp_per") := hD' "gp_per".toList (by simp [KernelKind.slots])
    have h' : fmt (k.par "gp_length") ++ ',' :: (" amp: ".toList ++ (fmt (k.par "gp_amp") ++ ',' :: (" per: ".toList ++ fmt (k.par "gp_per")))) =
        fmt (k'.par "gp_length") ++ ',' :: (" amp: ".toList ++ (fmt (k'.par "gp_amp") ++ ',' :: (" per: ".toList ++ fmt (k'.par "gp_per")))) := by
      simp only [List.append_assoc] at h
      exact List.append_cancel_left h
    obtain ⟨a, b, c⟩ := three_inj (hc _ dl) (hc _ dl') (hc _ da) (hc _ da') h'
    refine ⟨rfl, ?_⟩
    intro slot hs
    simp only [KernelKind.slots, List.mem_cons, List.not_mem_nil, or_false] at hs
    rcases hs with rfl | rfl | rfl
    · exact hi _ _ dl dl' a
    · exact hi _ _ da da' b
    · exact hi _ _ dp dp' c
  case quasiPer.quasiPer =>
    unfold Kernel.Holds at hD hD'
    rw [hk] at hD
    rw [hk'] at hD'
    have dl : D (k.par "gp_perlength") := hD "gp_perlength".toList (by simp [KernelKind.slots])
    have dl' : D (k'.par "gp_perlength") := hD' "gp_perlength".toList (by simp [KernelKind.slots])
    have da : D (k.par "gp_amp") := hD "gp_amp".toList (by simp [KernelKind.slots])
    have da' : D (k'.par "gp_amp") := hD' "gp_amp".toList (by simp [KernelKind.slots])
    have dp : D (k.par "gp_per") := hD "gp_per".toList (by simp [KernelKind.slots])
    have dp' : D (k'.par "gp_per") := hD' "gp_per".toList (by simp [KernelKind.slots])
    have de : D (k.par "gp_explength") := hD "gp_explength".toList (by simp [KernelKind.slots])
    have de' : D (k'.par "gp_explength") := hD' "gp_explength".toList (by simp [KernelKind.slots])
    have h' : fmt (k.par "gp_amp") ++ ',' :: (" per length: ".toList ++ (fmt (k.par "gp_perlength") ++ ',' :: (" per: ".toList ++ (fmt (k.par "gp_per") ++ ',' :: (" exp length: ".toList ++ fmt (k.par "gp_explength")))))) =
        fmt (k'.par "gp_amp") ++ ',' :: (" per length: ".toList ++ (fmt (k'.par "gp_perlength") ++ ',' :: (" per: ".toList ++ (fmt (k'.par "gp_per") ++ ',' :: (" exp length: ".toList ++ fmt (k'.par "gp_explength")))))) := by
      simp only [List.append_assoc] at h
      exact List.append_cancel_left h
    obtain ⟨a, b, h'⟩ := three_inj (hc _ da) (hc _ da') (hc _ dl) (hc _ dl') h'
    obtain ⟨c, h'⟩ := cut_inj (hc _ dp) (hc _ dp') h'
    have d := List.append_cancel_left h'
    refine ⟨rfl, ?_⟩
    intro slot hs
    simp only [KernelKind.slots, List.mem_cons, List.not_mem_nil, or_false] at hs
    rcases hs with rfl | rfl | rfl | rfl
    · exact hi _ _ dl dl' b
    · exact hi _ _ da da' a
    · exact hi _ _ dp dp' c
    · exact hi _ _ de de' d
  all_goals
    exfalso
    have := congrArg List.head? h
    simp at this

/-- C191: kernels printed alike compute the same covariance matrices, with the same exceptions. -/
theorem C191_covariance (D : ℝ → Prop) (fmt : ℝ → Text) (hf : NumberTexts D fmt) (k k' : Kernel) (hD : k.Holds D) (hD' : k'.Holds D) (h : k.repr fmt = k'.repr fmt) (x1 x2 : List ℝ) (errors : Option (List ℝ)) :
    ((k.setDistances x1 x2).computeCov errors).2 = ((k'.setDistances x1 x2).computeCov errors).2 := by
  obtain ⟨hk, hp⟩ := C191_determined D fmt hf k k' hD hD' h
  have par : ∀ (q : Kernel) (s : String), (q.setDistances x1 x2).par s = q.par s := fun _ _ => rfl
  have kind : ∀ q : Kernel, (q.setDistances x1 x2).kind = q.kind := fun _ => rfl
  unfold Kernel.computeCov
  rw [kind, kind, ← hk]
  simp only [par]
  cases hkk : k.kind
  · rw [hkk] at hp
    have a : k.par "gp_length" = k'.par "gp_length" := hp "gp_length".toList (by simp [KernelKind.slots])
    have b : k.par "gp_amp" = k'.par "gp_amp" := hp "gp_amp".toList (by simp [KernelKind.slots])
    simp only [a, b]
    rfl
  · rw [hkk] at hp
    have a : k.par "gp_length" = k'.par "gp_length" := hp "gp_length".toList (by simp [KernelKind.slots])
    have b : k.par "gp_amp" = k'.par "gp_amp" := hp "gp_amp".toList (by simp [KernelKind.slots])
    have c : k.par "gp_per" = k'.par "gp_per" := hp "gp_per".toList (by simp [KernelKind.slots])
    simp only [a, b, c]
    rfl
  · rw [hkk] at hp
    have a : k.par "gp_perlength" = k'.par "gp_perlength" := hp "gp_perlength".toList (by simp [KernelKind.slots])
    have b : k.par "gp_amp" = k'.par "gp_amp" := hp "gp_amp".toList (by simp [KernelKind.slots])
    have c : k.par "gp_per" = k'.par "gp_per" := hp "gp_per".toList (by simp [KernelKind.slots])
    have d : k.par "gp_explength" = k'.par "gp_explength" := hp "gp_explength".toList (by simp [KernelKind.slots])
    simp only [a, b, c, d]
    split_ifs
    · rfl
    · unfold Kernel.disabled
      cases errors with
      | none => rfl
      | some es =>
        simp only [Kernel.setDistances]
        by_cases hl : es.length = x1.length <;> simp [hl]
    · rfl

/-- C191: celerite kernels printed alike have the same hyperparameters, and are not printed like any other kernel. -/
theorem C191_celerite (D : ℝ → Prop) (fmt : ℝ → Text) (hf : NumberTexts D fmt) (B C L P B' C' L' P' : ℝ) (hB : D B) (hC : D C) (hL : D L) (hP : D P) (hB' : D B') (hC' : D C') (hL' : D L') (hP' : D P') :
    (celeriteRepr fmt B C L P = celeriteRepr fmt B' C' L' P' ↔ B = B' ∧ C = C' ∧ L = L' ∧ P = P') ∧ ∀ k : Kernel, k.repr fmt ≠ celeriteRepr fmt B C L P := by
  obtain ⟨hc, hi⟩ := hf
  refine ⟨⟨fun h => ?_, fun ⟨a, b, c, d⟩ => by rw [a, b, c, d]⟩, ?_⟩
  · have h' : fmt B ++ ',' :: (" C = ".toList ++ (fmt C ++ ',' :: (" L = ".toList ++ (fmt L ++ ',' :: (" Prot = ".toList ++ (fmt P ++ ".".toList)))))) =
        fmt B' ++ ',' :: (" C = ".toList ++ (fmt C' ++ ',' :: (" L = ".toList ++ (fmt L' ++ ',' :: (" Prot = ".toList ++ (fmt P' ++ ".".toList)))))) := by
      unfold celeriteRepr at h
      simp only [List.append_assoc] at h
      exact List.append_cancel_left h
    obtain ⟨a, b, h'⟩ := three_inj (hc _ hB) (hc _ hB') (hc _ hC) (hc _ hC') h'
    obtain ⟨c, h'⟩ := cut_inj (hc _ hL) (hc _ hL') h'
    have d := List.append_cancel_right (List.append_cancel_left h')
    exact ⟨hi _ _ hB hB' a, hi _ _ hC hC' b, hi _ _ hL hL' c, hi _ _ hP hP' d⟩
  · intro k h
    unfold Kernel.repr celeriteRepr at h
    cases hk : k.kind <;> rw [hk] at h <;> have := congrArg List.head? h <;> simp at this

/-- The hypotheses can be met: texts for all floating-point numbers exist, and a kernel holding such numbers. -/
example : (∃ fmt, NumberTexts IsBinary fmt) ∧ Kernel.Holds IsBinary { kind := .sqExp, hp := [("gp_length".toList, 2), ("gp_amp".toList, 7)], x1 := [], x2 := [], cov := none } := by
  constructor
  · have hc : {x : ℝ | IsBinary x}.Countable := by
      refine (Set.countable_range (fun p : ℤ × ℤ => (p.1 : ℝ) * 2 ^ p.2)).mono ?_
      rintro x ⟨m, e, -, rfl⟩
      exact ⟨(m, e), rfl⟩
    obtain ⟨f, hf⟩ := Set.countable_iff_exists_injOn.1 hc
    refine ⟨fun x => List.replicate (f x) '1', fun x _ hm => ?_, fun x y hx hy h => hf hx hy ?_⟩
    · exact absurd (List.eq_of_mem_replicate hm) (by decide)
    · simpa using congrArg List.length h
  · intro slot hs
    simp only [KernelKind.slots, List.mem_cons, List.not_mem_nil, or_false] at hs
    rcases hs with rfl | rfl
    · have e : Kernel.par { kind := .sqExp, hp := [("gp_length".toList, 2), ("gp_amp".toList, 7)], x1 := [], x2 := [], cov := none } (String.ofList "gp_length".toList) = ((2 : ℤ) : ℝ) := by
        simp [Kernel.par, Dict.get?]
      rw [e]
      exact ⟨2, 0, by norm_num, by norm_num⟩
    · have e : Kernel.par { kind := .sqExp, hp := [("gp_length".toList, 2), ("gp_amp".toList, 7)], x1 := [], x2 := [], cov := none } (String.ofList "gp_amp".toList) = ((7 : ℤ) : ℝ) := by
        simp [Kernel.par, Dict.get?]
      rw [e]
      exact ⟨7, 0, by norm_num, by norm_num⟩

end Radvel
