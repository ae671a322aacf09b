import Verif.Model.Chains
import Verif.Model.Masses
import Verif.Model.Report

/-!
# `radvel/driver.py` 566-684: derived parameters

The files are left out (see `Model/Pipeline`); this is the computation between loading the samples and saving the quantiles.
-/

namespace Radvel
open Real

/-- What `derive` reads from the setup file, /repo/radvel/driver.py 586-657. `stellar` is `none` if `P.stellar` is not defined, its entries are `none` if the key is missing; `radius i` is
`(P.planet['rp{i}'], P.planet['rp_err{i}'])`. -/
structure DeriveFile where
  nplanets : Nat
  params : Params ℝ
  stellar : Option (Option ℝ × Option ℝ)
  planet : Option (Nat → Option ℝ × Option ℝ)

/-- `np.random.normal(loc, scale, size)`: a negative scale raises; `z` are numbers drawn from the standard normal distribution. Used for /repo/radvel/driver.py 592-595, 654-658. -/
noncomputable def drawNormal {n : Nat} (loc scale : ℝ) (z : Fin n → ℝ) : Except PyErr (Fin n → ℝ) :=
  if scale < 0 then .error .valueError else .ok (fun j => loc + scale * z j)

/-- `mstar[mstar <= 0] = np.abs(mstar[mstar <= 0])`, /repo/radvel/driver.py 600-603. -/
noncomputable def foldMass (m : ℝ) : ℝ := if m ≤ 0 then |m| else m

/-- Columns of fixed parameters, /repo/radvel/driver.py 608-611: a constant column for every parameter whose `vary` is not true. -/
def addFixed {n : Nat} (c : Chain n) (items : Dict Key (Parameter ℝ)) : Chain n :=
  items.foldl (fun c x => if x.2.vary = .yes then c else c.set x.1 (fun _ => x.2.value)) c

/-- The name of a derived column, `'{}{}'.format(key, i)`. Models /repo/radvel/driver.py 629-633. -/
def derivedName (key : Text) (i : Nat) : Key := .other (String.ofList (key ++ digits i))

/-- `_get_param(key)`, /repo/radvel/driver.py 619-627: the column of the converted samples, or the value in the setup file. Simplification: nan cells do not occur in the columns read here. -/
def getParam {n : Nat} (f : Frame n) (P : DeriveFile) (i : Nat) (x : PName) : Except PyErr (Fin n → ℝ) :=
  match f.get? (.orb x i) with
  | some col => .ok (fun j => (col j).getD 0)
  | none =>
    match P.params.items.get? (.orb x i) with
    | some q => .ok (fun _ => q.value)
    | none => .error .keyError

/-- The part on radii, /repo/radvel/driver.py 653-665: a missing `P.planet` or entry is passed over. -/
noncomputable def addRadius {n : Nat} (k : Consts) (P : DeriveFile) (z : Fin n → ℝ) (mpsini : Fin n → ℝ) (acc : Chain n × List Key) (i : Nat) : Except PyErr (Chain n × List Key) :=
  match P.planet with
  | none => .ok acc
  | some r =>
    match r i with
    | (some loc, some scale) =>
      match drawNormal loc scale z with
      | .error e => .error e
      | .ok rp =>
        let rho (j : Fin n) : ℝ := match density k (mpsini j) (rp j) .earth with | .ok x => x | .error _ => 0
        .ok ((acc.1.set (derivedName "rp".toList i) rp).set (derivedName "rhop".toList i) rho, acc.2 ++ [derivedName "rhop".toList i])
    | _ => .ok acc

/-- One turn of the loop over planets, /repo/radvel/driver.py 617-665; `zr` are the random numbers for the radius. -/
noncomputable def derivePlanet {n : Nat} (root : (ℝ → Option ℝ) → ℝ → ℝ) (k : Consts) (P : DeriveFile) (f : Frame n) (mstar : Fin n → ℝ) (zr : Nat → Fin n → ℝ) (acc : Chain n × List Key) (i : Nat) :
    Except PyErr (Chain n × List Key) :=
  match getParam f P i .per with
  | .error e => .error e
  | .ok per =>
    match getParam f P i .k with
    | .error e => .error e
    | .ok amp =>
      match getParam f P i .e with
      | .error e => .error e
      | .ok ecc =>
        match msini root k (List.ofFn fun j => ⟨amp j, per j, mstar j, ecc j⟩) .earth with
        | .error e => .error e
        | .ok ms =>
          let mpsini (j : Fin n) : ℝ := ms.getD j 0
          let mtotal (j : Fin n) : ℝ := mstar j + (mpsini j * k.Mearth) / k.Msun
          let a (j : Fin n) : ℝ := semiMajorAxis k (per j) (mtotal j)
          let musini (j : Fin n) : ℝ := (mpsini j * k.Mearth) / (mstar j * k.Msun)
          addRadius k P (zr i) mpsini
            (((acc.1.set (derivedName "mpsini".toList i) mpsini).set (derivedName "a".toList i) a).set (derivedName "musini".toList i) musini,
              acc.2 ++ [derivedName "mpsini".toList i, derivedName "a".toList i, derivedName "musini".toList i]) i

/-- `derive`, /repo/radvel/driver.py 586-665: `none` if the setup file has no `stellar`; otherwise the samples with the derived columns and the names of the columns that are saved. `post` are the parameters
of the saved posterior, `chains` the saved samples, `z` and `zr` the random numbers. -/
noncomputable def derive {n : Nat} (root : (ℝ → Option ℝ) → ℝ → ℝ) (k : Consts) (P : DeriveFile) (post : Params ℝ) (chains : Chain n) (z : Fin n → ℝ) (zr : Nat → Fin n → ℝ) :
    Except PyErr (Option (Chain n × List Key)) :=
  match P.stellar with
  | none => .ok none
  | some (some loc, some scale) =>
    match drawNormal loc scale z with
    | .error e => .error e
    | .ok m =>
      match (addFixed chains post.items).toSynth post.basis post.numPlanets with
      | .error e => .error e
      | .ok f =>
        match ((List.range P.nplanets).map (· + 1)).foldlM (derivePlanet root k P f (fun j => foldMass (m j)) zr) (chains, []) with
        | .error e => .error e
        | .ok r => .ok (some r)
  | some _ => .error .keyError

end Radvel
