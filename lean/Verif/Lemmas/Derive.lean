import Verif.Model.Derive
import Verif.Lemmas.Chains
import Verif.Lemmas.ReportDerived
import Mathlib.Data.List.Induction

/-! Lemmas on derived parameters. -/

namespace Radvel
open Real

/-- The five names that `derive` uses. -/
def deriveKeys : List Text := ["mpsini".toList, "a".toList, "musini".toList, "rp".toList, "rhop".toList]

theorem takeWhile_label (k : Text) (n : Nat) (hk : ∀ c ∈ k, c.isDigit = false) : (k ++ digits n).takeWhile (fun c => !c.isDigit) = k := by
  rw [List.takeWhile_append]
  have h1 : k.takeWhile (fun c => !c.isDigit) = k := by
    clear n
    induction k with
    | nil => rfl
    | cons c t ih => rw [List.takeWhile_cons_of_pos (by simp [hk c (by simp)]), ih (fun d hd => hk d (by simp [hd]))]
  have h2 : (digits n).takeWhile (fun c => !c.isDigit) = [] := by
    rcases h : digits n with _ | ⟨d, t⟩
    · rfl
    · have := digits_isDigit n d (by rw [h]; simp)
      simp [this]
  rw [h1, if_pos rfl, h2, List.append_nil]

theorem derivedName_inj (k k' : Text) (hk : k ∈ deriveKeys) (hk' : k' ∈ deriveKeys) (n n' : Nat) (h : derivedName k n = derivedName k' n') : k = k' ∧ n = n' := by
  have hd : ∀ k ∈ deriveKeys, ∀ c ∈ k, c.isDigit = false := by decide
  unfold derivedName at h
  have h : k ++ digits n = k' ++ digits n' := String.ofList_injective (Key.other.inj h)
  have hkk : k = k' := by
    have := congrArg (List.takeWhile (fun c => !c.isDigit)) h
    rwa [takeWhile_label k n (hd k hk), takeWhile_label k' n' (hd k' hk')] at this
  subst hkk
  exact ⟨rfl, digits_inj _ _ (List.append_cancel_left h)⟩

/-- What one turn of the loop over planets adds. -/
structure DerivedCols {n : Nat} (root : (ℝ → Option ℝ) → ℝ → ℝ) (k : Consts) (P : DeriveFile) (f : Frame n) (mstar : Fin n → ℝ) (zr : Nat → Fin n → ℝ) (i : Nat) (c : Chain n) (per amp ecc : Fin n → ℝ) (ms : List ℝ) : Prop where
  hper : getParam f P i .per = .ok per
  hamp : getParam f P i .k = .ok amp
  hecc : getParam f P i .e = .ok ecc
  mass : msini root k (List.ofFn fun j => ⟨amp j, per j, mstar j, ecc j⟩) .earth = .ok ms
  mpsini : c.get? (derivedName "mpsini".toList i) = some (fun j : Fin n => ms.getD j 0)
  a : c.get? (derivedName "a".toList i) = some (fun j : Fin n => semiMajorAxis k (per j) (mstar j + (ms.getD j 0 * k.Mearth) / k.Msun))
  musini : c.get? (derivedName "musini".toList i) = some (fun j : Fin n => (ms.getD j 0 * k.Mearth) / (mstar j * k.Msun))
  radius : ∀ r loc scale, P.planet = some r → r i = (some loc, some scale) → 0 ≤ scale ∧ c.get? (derivedName "rp".toList i) = some (fun j : Fin n => loc + scale * zr i j) ∧
    c.get? (derivedName "rhop".toList i) = some (fun j : Fin n => match density k (ms.getD j 0) (loc + scale * zr i j) .earth with | .ok x => x | .error _ => 0)

/-- Whether the setup file gives the radius of a planet. -/
def DeriveFile.hasRadius (P : DeriveFile) (i : Nat) : Bool :=
  match P.planet with
  | none => false
  | some r => (r i).1.isSome && (r i).2.isSome

/-- The columns saved for one planet. -/
def DeriveFile.outNames (P : DeriveFile) (i : Nat) : List Key :=
  [derivedName "mpsini".toList i, derivedName "a".toList i, derivedName "musini".toList i] ++ (if P.hasRadius i then [derivedName "rhop".toList i] else [])

theorem addRadius_spec {n : Nat} {k : Consts} {P : DeriveFile} {z : Fin n → ℝ} {mp : Fin n → ℝ} {acc r : Chain n × List Key} {i : Nat} (h : addRadius k P z mp acc i = .ok r) :
    (∀ q, (∀ x ∈ ["rp".toList, "rhop".toList], q ≠ derivedName x i) → r.1.get? q = acc.1.get? q) ∧
    r.2 = acc.2 ++ (if P.hasRadius i then [derivedName "rhop".toList i] else []) ∧
    (∀ g loc scale, P.planet = some g → g i = (some loc, some scale) → 0 ≤ scale ∧ r.1.get? (derivedName "rp".toList i) = some (fun j => loc + scale * z j) ∧
      r.1.get? (derivedName "rhop".toList i) = some (fun j => match density k (mp j) (loc + scale * z j) .earth with | .ok x => x | .error _ => 0)) := by
  unfold addRadius at h
  rcases hp : P.planet with _ | g
  · rw [hp] at h
    cases Except.ok.inj h
    exact ⟨fun _ _ => rfl, by simp [DeriveFile.hasRadius, hp], by simp⟩
  · rw [hp] at h
    simp only at h
    rcases hg : g i with ⟨_ | loc, _ | scale⟩
    · rw [hg] at h
      cases Except.ok.inj h
      exact ⟨fun _ _ => rfl, by simp [DeriveFile.hasRadius, hp, hg], by intro _ _ _ h1; cases h1; simp [hg]⟩
    · rw [hg] at h
      cases Except.ok.inj h
      exact ⟨fun _ _ => rfl, by simp [DeriveFile.hasRadius, hp, hg], by intro _ _ _ h1; cases h1; simp [hg]⟩
    · rw [hg] at h
      cases Except.ok.inj h
      exact ⟨fun _ _ => rfl, by simp [DeriveFile.hasRadius, hp, hg], by intro _ _ _ h1; cases h1; simp [hg]⟩
    · rw [hg] at h
      simp only [drawNormal] at h
      by_cases hs : scale < 0
      · rw [if_pos hs] at h; cases h
      · rw [if_neg hs] at h
        have h := (Except.ok.inj h).symm
        subst h
        have hne : derivedName "rp".toList i ≠ derivedName "rhop".toList i := by
          intro he
          exact absurd (derivedName_inj _ _ (by decide) (by decide) _ _ he).1 (by decide)
        refine ⟨?_, by simp [DeriveFile.hasRadius, hp, hg], ?_⟩
        · intro q hq
          rw [Dict.get?_set_ne _ _ (hq "rhop".toList (by simp)).symm, Dict.get?_set_ne _ _ (hq "rp".toList (by simp)).symm]
        · intro _ loc' scale' h1 h2
          cases h1
          rw [hg] at h2
          cases h2
          refine ⟨not_lt.1 hs, ?_, ?_⟩
          · rw [Dict.get?_set_ne _ _ hne.symm, Dict.get?_set_self]
          · rw [Dict.get?_set_self]
            rfl

theorem derivePlanet_spec {n : Nat} {root : (ℝ → Option ℝ) → ℝ → ℝ} {k : Consts} {P : DeriveFile} {f : Frame n} {mstar : Fin n → ℝ} {zr : Nat → Fin n → ℝ} {acc r : Chain n × List Key} {i : Nat}
    (h : derivePlanet root k P f mstar zr acc i = .ok r) :
    (∃ per amp ecc ms, DerivedCols root k P f mstar zr i r.1 per amp ecc ms) ∧ r.2 = acc.2 ++ P.outNames i ∧ ∀ q, (∀ x ∈ deriveKeys, q ≠ derivedName x i) → r.1.get? q = acc.1.get? q := by
  unfold derivePlanet at h
  rcases h1 : getParam f P i .per with e | per
  · rw [h1] at h; cases h
  rcases h2 : getParam f P i .k with e | amp
  · rw [h1, h2] at h; cases h
  rcases h3 : getParam f P i .e with e | ecc
  · rw [h1, h2, h3] at h; cases h
  rcases h4 : msini root k (List.ofFn fun j => ⟨amp j, per j, mstar j, ecc j⟩) .earth with e | ms
  · simp only [h1, h2, h3, h4] at h; cases h
  simp only [h1, h2, h3, h4] at h
  obtain ⟨a1, a2, a3⟩ := addRadius_spec h
  have ne : ∀ x ∈ deriveKeys, ∀ y ∈ deriveKeys, x ≠ y → derivedName x i ≠ derivedName y i := fun x hx y hy hxy he => hxy (derivedName_inj x y hx hy _ _ he).1
  refine ⟨⟨per, amp, ecc, ms, h1, h2, h3, h4, ?_, ?_, ?_, a3⟩, ?_, ?_⟩
  · rw [a1 _ (by intro x hx; exact ne _ (by decide) _ (by revert x; decide) (by revert x; decide))]
    rw [Dict.get?_set_ne _ _ (ne _ (by decide) _ (by decide) (by decide)), Dict.get?_set_ne _ _ (ne _ (by decide) _ (by decide) (by decide)), Dict.get?_set_self]
  · rw [a1 _ (by intro x hx; exact ne _ (by decide) _ (by revert x; decide) (by revert x; decide))]
    rw [Dict.get?_set_ne _ _ (ne _ (by decide) _ (by decide) (by decide)), Dict.get?_set_self]
  · rw [a1 _ (by intro x hx; exact ne _ (by decide) _ (by revert x; decide) (by revert x; decide))]
    rw [Dict.get?_set_self]
  · rw [a2, List.append_assoc]
    rfl
  · intro q hq
    rw [a1 q (fun x hx => hq x (by revert x; decide))]
    rw [Dict.get?_set_ne _ _ (hq _ (by decide)).symm, Dict.get?_set_ne _ _ (hq _ (by decide)).symm, Dict.get?_set_ne _ _ (hq _ (by decide)).symm]

theorem DerivedCols.congr {n : Nat} {root : (ℝ → Option ℝ) → ℝ → ℝ} {k : Consts} {P : DeriveFile} {f : Frame n} {mstar : Fin n → ℝ} {zr : Nat → Fin n → ℝ} {i : Nat} {c c' : Chain n} {per amp ecc : Fin n → ℝ} {ms : List ℝ}
    (h : DerivedCols root k P f mstar zr i c per amp ecc ms) (hc : ∀ x ∈ deriveKeys, c'.get? (derivedName x i) = c.get? (derivedName x i)) : DerivedCols root k P f mstar zr i c' per amp ecc ms where
  hper := h.hper
  hamp := h.hamp
  hecc := h.hecc
  mass := h.mass
  mpsini := by rw [hc _ (by decide)]; exact h.mpsini
  a := by rw [hc _ (by decide)]; exact h.a
  musini := by rw [hc _ (by decide)]; exact h.musini
  radius := by
    intro r loc scale h1 h2
    rw [hc _ (by decide), hc _ (by decide)]
    exact h.radius r loc scale h1 h2

theorem deriveLoop_spec {n : Nat} {root : (ℝ → Option ℝ) → ℝ → ℝ} {k : Consts} {P : DeriveFile} {f : Frame n} {mstar : Fin n → ℝ} {zr : Nat → Fin n → ℝ} (l : List Nat) (hl : l.Nodup) :
    ∀ (acc r : Chain n × List Key), l.foldlM (derivePlanet root k P f mstar zr) acc = .ok r →
    (∀ i ∈ l, ∃ per amp ecc ms, DerivedCols root k P f mstar zr i r.1 per amp ecc ms) ∧ r.2 = acc.2 ++ l.flatMap P.outNames ∧
    ∀ q, (∀ i ∈ l, ∀ x ∈ deriveKeys, q ≠ derivedName x i) → r.1.get? q = acc.1.get? q := by
  induction l with
  | nil =>
    intro acc r h
    cases Except.ok.inj h
    exact ⟨by simp, by simp, fun _ _ => rfl⟩
  | cons i l ih =>
    intro acc r h
    rw [List.nodup_cons] at hl
    change (derivePlanet root k P f mstar zr acc i >>= _) = _ at h
    rcases h1 : derivePlanet root k P f mstar zr acc i with e | m
    · rw [h1] at h; cases h
    rw [h1] at h
    change l.foldlM (derivePlanet root k P f mstar zr) m = _ at h
    obtain ⟨⟨per, amp, ecc, ms, b1⟩, b2, b3⟩ := derivePlanet_spec h1
    obtain ⟨c1, c2, c3⟩ := ih hl.2 m r h
    refine ⟨?_, ?_, ?_⟩
    · intro i' hi'
      rcases List.mem_cons.1 hi' with rfl | hi'
      · refine ⟨per, amp, ecc, ms, b1.congr (fun x hx => ?_)⟩
        refine c3 _ (fun i'' hi'' y hy he => ?_)
        have := (derivedName_inj _ _ hx hy _ _ he).2
        subst this
        exact hl.1 hi''
      · exact c1 i' hi'
    · rw [c2, b2, List.flatMap_cons, List.append_assoc]
    · intro q hq
      rw [c3 q (fun i' hi' => hq i' (List.mem_cons_of_mem _ hi')), b3 q (hq i (by simp))]

/-- `derive` taken apart. -/
theorem derive_spec {n : Nat} {root : (ℝ → Option ℝ) → ℝ → ℝ} {k : Consts} {P : DeriveFile} {post : Params ℝ} {chains : Chain n} {z : Fin n → ℝ} {zr : Nat → Fin n → ℝ} {r : Chain n × List Key}
    (h : derive root k P post chains z zr = .ok (some r)) : ∃ loc scale f, P.stellar = some (some loc, some scale) ∧ 0 ≤ scale ∧
      (addFixed chains post.items).toSynth post.basis post.numPlanets = .ok f ∧
      (∀ i, 1 ≤ i → i ≤ P.nplanets → ∃ per amp ecc ms, DerivedCols root k P f (fun j => foldMass (loc + scale * z j)) zr i r.1 per amp ecc ms) ∧
      r.2 = ((List.range P.nplanets).map (· + 1)).flatMap P.outNames ∧
      ∀ q, (∀ i, ∀ x ∈ deriveKeys, q ≠ derivedName x i) → r.1.get? q = chains.get? q := by
  unfold derive at h
  rcases hs : P.stellar with _ | ⟨_ | loc, _ | scale⟩
  · rw [hs] at h; cases Except.ok.inj h
  · rw [hs] at h; cases h
  · rw [hs] at h; cases h
  · rw [hs] at h; cases h
  rw [hs] at h
  simp only [drawNormal] at h
  by_cases hsc : scale < 0
  · rw [if_pos hsc] at h; cases h
  rw [if_neg hsc] at h
  simp only at h
  rcases hf : (addFixed chains post.items).toSynth post.basis post.numPlanets with e | f
  · rw [hf] at h; cases h
  rw [hf] at h
  simp only at h
  rcases hl : ((List.range P.nplanets).map (· + 1)).foldlM (derivePlanet root k P f (fun j => foldMass (loc + scale * z j)) zr) (chains, []) with e | r'
  · rw [hl] at h; cases h
  rw [hl] at h
  cases Option.some.inj (Except.ok.inj h)
  obtain ⟨a1, a2, a3⟩ := deriveLoop_spec _ (List.Nodup.map (fun a b h => Nat.succ.inj h) List.nodup_range) _ _ hl
  refine ⟨loc, scale, f, rfl, not_lt.1 hsc, rfl, ?_, by simpa using a2, ?_⟩
  · intro i h1 h2
    exact a1 i (List.mem_map.2 ⟨i - 1, List.mem_range.2 (by omega), by omega⟩)
  · intro q hq
    exact a3 q (fun i _ => hq i)

end Radvel
