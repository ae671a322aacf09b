import Verif.Spec.KeplerShape
import Verif.Props.Kepler

/-!
# One velocity for every time (C184)
-/

namespace Radvel
open Real

theorem Ret.entries_map (f : Option ℝ → Option ℝ) (r : Ret) : (r.map f).entries = r.entries.map f := by cases r <;> rfl

theorem keplerRet_ok {fuel : Nat} {xs : List (ℝ × ℝ)} {r : Ret} (h : keplerRet fuel xs = some (.ok r)) :
    r.entries = xs.map (fun x => npSolve fuel x.1 x.2) ∧ ((∃ v, r = .scalar v) ↔ xs.length = 1) := by
  unfold keplerRet at h
  obtain ⟨l, hl, h⟩ := Option.map_eq_some_iff.1 h
  obtain ⟨hlen, hel⟩ := C20_elementwise fuel xs l hl
  have he : l = xs.map (fun x => npSolve fuel x.1 x.2) := by
    apply List.ext_getElem?
    intro i
    rw [List.getElem?_map]
    cases hx : xs[i]? with
    | none =>
      rw [List.getElem?_eq_none_iff] at hx
      simpa using hlen ▸ hx
    | some x =>
      have hi : i < l.length := by rw [hlen]; exact (List.getElem?_eq_some_iff.1 hx).1
      have hv := List.getElem?_eq_getElem hi
      rw [hv]
      have := hel i x _ hx hv
      simp only [Option.map_some, Option.some.injEq]
      unfold npSolve
      rw [this]
      cases l[i] <;> rfl
  split at h
  · next hc =>
    cases h
    refine ⟨he, ?_⟩
    constructor
    · rintro ⟨v, hv⟩; cases hv
    · intro h1; omega
  · next hc =>
    cases l with
    | nil => cases h
    | cons x t =>
      cases h
      have ht : t = [] := by
        simp only [List.length_cons] at hc
        exact List.length_eq_zero_iff.1 (by omega)
      subst ht
      refine ⟨he, fun _ => by simpa using hlen.symm, fun _ => ⟨x, rfl⟩⟩

/-- C184: whatever `rv_drive` returns has one entry for every time, the velocity at that time. It is an array, except for one time of an eccentric orbit without the C extension (missing there: an array; arrays for which the call raises, see
`C184_raises_partial`). -/
theorem C184_entries_partial (cext : Bool) (fuel : Nat) (T : Times) (o : Synth) (r : Ret) (h : rvDriveTimes cext fuel T o = some (.ok r)) :
    r.entries = T.vals.map (fun t => driveAt cext fuel t o) ∧ ((∃ v, r = .scalar v) ↔ cext = false ∧ o.e ≠ 0 ∧ T.vals.length = 1) := by
  unfold rvDriveTimes at h
  unfold driveAt rvDrive
  by_cases he : o.e = 0
  · rw [if_pos he] at h
    cases h
    simp [he, Ret.entries]
  · rw [if_neg he] at h
    cases cext with
    | true =>
      simp only [if_true] at h
      cases hf : T.float with
      | false => rw [hf] at h; cases h
      | true =>
        rw [hf] at h
        cases h
        simp [he, Ret.entries]
    | false =>
      simp only [Bool.false_eq_true, if_false] at h
      obtain ⟨a, ha, h⟩ := Option.map_eq_some_iff.1 h
      cases a with
      | error e => cases h
      | ok q =>
        cases h
        obtain ⟨k1, k2⟩ := keplerRet_ok ha
        refine ⟨?_, ?_⟩
        · rw [Ret.entries_map, k1, List.map_map, List.map_map]
          simp [he, Function.comp_def]
        · simp only [he, ne_eq, not_false_eq_true, true_and]
          rw [List.length_map] at k2
          rw [← k2]
          cases q <;> simp [Ret.map]

theorem npLoop_nil (fuel : Nat) : npLoop fuel [] = some [] := by
  unfold npLoop
  simp

/-- C184, the rest: an answer that is not a value is an exception, `ValueError` or `IndexError`, exactly for an eccentric orbit and times that are not `float64` with the C extension, or no times without it. -/
theorem C184_raises_partial (cext : Bool) (fuel : Nat) (T : Times) (o : Synth) (e : PyErr) :
    rvDriveTimes cext fuel T o = some (.error e) ↔ o.e ≠ 0 ∧ ((cext = true ∧ T.float = false ∧ e = .valueError) ∨ (cext = false ∧ T.vals = [] ∧ e = .indexError)) := by
  unfold rvDriveTimes
  by_cases he : o.e = 0
  · simp [he]
  · rw [if_neg he]
    cases cext with
    | true =>
      cases hf : T.float with
      | false => simp [he, eq_comm]
      | true => simp
    | false =>
      simp only [Bool.false_eq_true, if_false, false_and, false_or, true_and, ne_eq, he, not_false_eq_true]
      cases hT : T.vals with
      | nil => simp [keplerRet, npKepler, npInit, npLoop_nil, Except.map, eq_comm]
      | cons t ts =>
        simp only [reduceCtorEq, false_and, iff_false]
        intro h
        obtain ⟨a, ha, h⟩ := Option.map_eq_some_iff.1 h
        cases a with
        | ok q => cases h
        | error e' =>
          unfold keplerRet at ha
          obtain ⟨l, hl, ha⟩ := Option.map_eq_some_iff.1 ha
          have hlen := (C20_elementwise fuel _ l hl).1
          split at ha
          · cases ha
          · cases l with
            | nil => simp at hlen
            | cons x xs => cases ha

/-- C184 in full is false: without the C extension one time gives a number, not an array of one, no times give `IndexError`; with it integer times give `ValueError`. For circular orbits all of these are answered by arrays. -/
theorem C184_shape_violated (t : ℤ) (fuel : Nat) (o : Synth) (he : o.e ≠ 0) :
    (∀ b r, rvDriveTimes false fuel ⟨[t], b⟩ o = some (.ok r) → ∃ v, r = .scalar v) ∧ (∀ b, rvDriveTimes false fuel ⟨[], b⟩ o = some (.error .indexError)) ∧
      rvDriveTimes true fuel ⟨[t], false⟩ o = some (.error .valueError) ∧ ∀ cext T, ∃ l, rvDriveTimes cext fuel T { o with e := 0 } = some (.ok (.array l)) ∧ l.length = T.vals.length := by
  refine ⟨fun b r h => (C184_entries_partial _ _ _ _ _ h).2.2 ⟨rfl, he, rfl⟩, fun b => (C184_raises_partial _ _ _ _ _).2 ⟨he, .inr ⟨rfl, rfl, rfl⟩⟩, (C184_raises_partial _ _ _ _ _).2 ⟨he, .inl ⟨rfl, rfl, rfl⟩⟩, ?_⟩
  intro cext T
  exact ⟨_, if_pos rfl, by simp⟩

theorem addInto_entries {vel : List (Option ℝ)} {r : Ret} (h : r.entries.length = vel.length) : addInto vel r = .ok (List.zipWith addNan vel r.entries) := by
  cases r with
  | scalar v =>
    match vel, h with
    | [x], _ => rfl
  | array l => exact if_pos h

/-- C184, the model: the sum over planets has one entry for every time, the sum of the velocities at that time. -/
theorem C184_sum (cext : Bool) (fuel : Nat) (T : Times) (os : List Synth) (l : List (Option ℝ)) (h : velTimes cext fuel T os = some (.ok l)) :
    l = T.vals.map fun t => os.foldl (fun a o => addNan a (driveAt cext fuel t o)) (some 0) := by
  unfold velTimes at h
  have key : ∀ (os : List Synth) (g : ℝ → Option ℝ), os.foldl (fun acc o => acc.bind fun a =>
      match a with
      | Except.error e => some (Except.error e)
      | Except.ok vel => (rvDriveTimes cext fuel T o).map fun r => r.bind (addInto vel)) (some (Except.ok (T.vals.map g)) : Option (Except PyErr (List (Option ℝ)))) = some (.ok l) →
      l = T.vals.map fun t => os.foldl (fun a o => addNan a (driveAt cext fuel t o)) (g t) := by
    have stuck : ∀ os : List Synth, os.foldl (fun acc o => acc.bind fun a =>
      match a with
      | Except.error e => some (Except.error e)
      | Except.ok vel => (rvDriveTimes cext fuel T o).map fun r => r.bind (addInto vel)) (none : Option (Except PyErr (List (Option ℝ)))) = none := by
      intro os
      induction os with
      | nil => rfl
      | cons o os ih => exact ih
    have stuck' : ∀ (os : List Synth) (e : PyErr), os.foldl (fun acc o => acc.bind fun a =>
      match a with
      | Except.error e => some (Except.error e)
      | Except.ok vel => (rvDriveTimes cext fuel T o).map fun r => r.bind (addInto vel)) (some (.error e) : Option (Except PyErr (List (Option ℝ)))) = some (.error e) := by
      intro os e
      induction os with
      | nil => rfl
      | cons o os ih => exact ih
    intro os
    induction os with
    | nil => intro g h; cases h; rfl
    | cons o os ih =>
      intro g h
      rw [List.foldl_cons] at h
      simp only [Option.bind_some] at h
      cases hr : rvDriveTimes cext fuel T o with
      | none => rw [hr, Option.map_none, stuck] at h; cases h
      | some a =>
        rw [hr, Option.map_some] at h
        cases a with
        | error e => rw [show (Except.error e : Except PyErr Ret).bind (addInto (T.vals.map g)) = .error e from rfl, stuck'] at h; cases h
        | ok r =>
          have hE := (C184_entries_partial _ _ _ _ _ hr).1
          rw [show (Except.ok r : Except PyErr Ret).bind (addInto (T.vals.map g)) = addInto (T.vals.map g) r from rfl, addInto_entries (by rw [hE]; simp), hE, List.zipWith_map_left, List.zipWith_map_right, List.zipWith_self] at h
          exact ih _ h
  exact key os _ h

theorem npKepler_half : npKepler 0 [(0, 0.5)] = some [some 0] :=
  (C20_elementwise 0 _ _ npKepler_zero).2 0 _ _ rfl rfl

/-- The hypotheses of C184 hold: without the C extension, an eccentric and a circular orbit and one time. The first answers with a number, the second with an array of one. -/
example : (∃ v, rvDriveTimes false 0 ⟨[3], true⟩ ⟨10, 3, 0.5, 1, 4⟩ = some (.ok (.scalar v))) ∧
    ∃ l, velTimes false 0 ⟨[3], true⟩ [⟨10, 3, 0.5, 1, 4⟩, ⟨20, 3, 0, 1, 4⟩] = some (.ok l) ∧ l.length = 1 := by
  have hm : meanAnomaly 3 3 10 = 0 := by simp [meanAnomaly]
  have h1 : ∃ v, rvDriveTimes false 0 ⟨[3], true⟩ ⟨10, 3, 0.5, 1, 4⟩ = some (.ok (.scalar v)) := by
    refine ⟨some (rvNumpy 0.5 1 4 0), ?_⟩
    unfold rvDriveTimes
    rw [if_neg (by norm_num)]
    norm_num [hm, keplerRet]
    rw [show ((1 : ℝ) / 2) = 0.5 by norm_num, npKepler_half]
    simp [Ret.map, Except.map]
  refine ⟨h1, ?_⟩
  obtain ⟨v, hv⟩ := h1
  have h2 : rvDriveTimes false 0 ⟨[3], true⟩ ⟨20, 3, 0, 1, 4⟩ = some (.ok (.array [some (rvCircular 3 20 3 1 4)])) := if_pos rfl
  refine ⟨[addNan (addNan (some 0) v) (some (rvCircular 3 20 3 1 4))], ?_, rfl⟩
  simp [velTimes, hv, h2, Except.bind, addInto]

end Radvel
