import Verif.Model.ModelComp
import Mathlib.Data.Finset.Card
import Mathlib.Data.Finset.Sort
import Mathlib.Data.Finset.Powerset

/-! # What model comparison should enumerate -/

namespace Radvel

/-- The planets that have at least one free parameter among the basis words `ws`. -/
def candidates {α : Type} (ws : List PName) (p : CPost α) : Finset Nat :=
  (Finset.range (p.nplanets + 1)).filter fun n => 1 ≤ n ∧ ∃ w ∈ ws, (p.vec.get? (.orb w n)).map Row.vary = some true

/-- The posterior has a row for every basis word in `ws` of every planet, each name once. -/
structure HasRows {α : Type} (ws : List PName) (p : CPost α) : Prop where
  nodup : p.vec.keys.Nodup
  rows : ∀ n, 1 ≤ n → n ≤ p.nplanets → ∀ w ∈ ws, Key.orb w n ∈ p.vec.keys

/-- The model in which the planets in `S` have circular orbits: their eccentricity parameters (basis words `ws`) are zero and fixed; everything else is as before. -/
def circularModel {α : Type} (zero : α) (ws : List PName) (S : Finset Nat) (p : CPost α) : CPost α :=
  { p with vec := p.vec.map fun kr => match kr.1 with
      | .orb w n => if w ∈ ws ∧ n ∈ S then (kr.1, { kr.2 with value := zero, vary := false }) else kr
      | _ => kr }

/-- The model without the planets in `S`: all their parameters are fixed, and their amplitude is zero; everything else is as before. -/
def withoutPlanets {α : Type} (zero negInf : α) (ws : List PName) (S : Finset Nat) (p : CPost α) : CPost α :=
  { p with vec := p.vec.map fun kr => match kr.1 with
      | .orb w n => if w ∈ ws ∧ n ∈ S then (kr.1, { kr.2 with value := if w = .k then zero else if w = .logk then negInf else kr.2.value, vary := false }) else kr
      | _ => kr }

/-- A fresh list of the free parameters in the posterior and the likelihood. -/
def FreshCaches {α : Type} (p : CPost α) : Prop :=
  p.likeCache = some (freeRows (p.vec.map Prod.snd)) ∧ p.postCache = some (freeRows (p.vec.map Prod.snd))

end Radvel
