import Verif.Model.Basis

/-!
# `radvel/basis.py` with objects

`Model/Basis` computes the values of converted parameters. Here `Parameter` and `Basis` objects have identities: a `Parameters` object holds references, and two of them may hold the same one. The store is the state; an
exception leaves the store as it is at that moment.
-/

namespace Radvel

/-- The `Parameter` and `Basis` objects that exist; a reference is a position in the list. Of a `Basis` only the name is kept. Used for /repo/radvel/basis.py 49-118, 227-399, 488-741. -/
structure Store where
  pars : List (Parameter ℝ)
  bases : List BasisName

/-- A `Parameters` object: its items and its basis are references. Models /repo/radvel/model.py 72-121. -/
structure HParams where
  numPlanets : Nat
  basis : Nat
  planetParameters : List PName
  letters : Option (Dict Nat String)
  items : Dict Key Nat

/-- The object behind a reference. Used for /repo/radvel/basis.py 49-118, 227-399, 488-741. Simplification: a reference to nothing, which does not occur, is read as a parameter with value 0. -/
def Store.par (s : Store) (r : Nat) : Parameter ℝ := (s.pars[r]?).getD { value := 0 }

/-- The name of the `Basis` object behind a reference. Used for /repo/radvel/basis.py 51. -/
def Store.basisName (s : Store) (r : Nat) : BasisName := (s.bases[r]?).getD .perTpEWK

/-- The items as they read now. Used for /repo/radvel/basis.py 249-273, 518-539. -/
def Store.items (s : Store) (d : Dict Key Nat) : Dict Key (Parameter ℝ) := d.map fun x => (x.1, s.par x.2)

/-- The `Parameters` object as it reads now. Used for /repo/radvel/basis.py 49-57. -/
def Store.view (s : Store) (p : HParams) : Params ℝ :=
  { numPlanets := p.numPlanets, basis := s.basisName p.basis, planetParameters := p.planetParameters, letters := p.letters, items := s.items p.items }

/-- A new `Parameter` object, stored under a key: `d[k] = Parameter(...)`. Used for /repo/radvel/model.py 108-111, /repo/radvel/basis.py 271-273, 537-539. -/
def Store.bind (k : Key) (x : Parameter ℝ) (acc : Dict Key Nat × Store) : Dict Key Nat × Store := (acc.1.set k acc.2.pars.length, { acc.2 with pars := acc.2.pars ++ [x] })

/-- `Parameters.__init__`, /repo/radvel/model.py 101-121: new objects for the default keys and a new basis. -/
def initH (dflt : ℝ) (N : Nat) (b : BasisName) (letters : Option (Dict Nat String)) (s : Store) : HParams × Store :=
  let x := (defaultKeys N b.words).foldl (fun acc k => Store.bind k { value := dflt } acc) ([], s)
  ({ numPlanets := N, basis := x.2.bases.length, planetParameters := b.words, letters := letters, items := x.1 }, { x.2 with bases := x.2.bases ++ [b] })

/-- `_copy_params`, /repo/radvel/basis.py 49-57: `update` stores the references of the input. -/
def copyH (dflt : ℝ) (p : HParams) (s : Store) : HParams × Store :=
  let x := initH dflt p.numPlanets (s.basisName p.basis) p.letters s
  ({ x.1 with items := x.1.items.update p.items }, x.2)

/-- A sequence of `_setpar` calls, /repo/radvel/basis.py 255-273, 524-539: each stores a new object. -/
def setparsH (pin : HParams) (newVary : Vary) (n : Nat) (news : List (PName × ℝ)) (acc : Dict Key Nat × Store) : Dict Key Nat × Store :=
  news.foldl (fun acc x => Store.bind (.orb x.1 n) (newPar (acc.2.items pin.items) newVary (.orb x.1 n) x.2) acc) acc

/-- A sequence of `_delpar` calls, /repo/radvel/basis.py 541-543. -/
def delparsH (n : Nat) (dels : List PName) (out : Dict Key Nat) : Except PyErr (Dict Key Nat) := dels.foldlM (fun out x => out.del (.orb x n)) out

/-- The loop over planets, /repo/radvel/basis.py 247, 516. -/
def planetsH (f : Nat → Dict Key Nat → Store → Except PyErr (Dict Key Nat) × Store) : List Nat → Dict Key Nat → Store → Except PyErr (Dict Key Nat) × Store
  | [], d, s => (.ok d, s)
  | i :: l, d, s =>
    match f i d s with
    | (.error e, s') => (.error e, s')
    | (.ok d', s') => planetsH f l d' s'

/-- One planet of `to_synth`, /repo/radvel/basis.py 249-394. -/
noncomputable def synthPlanetH (b : BasisName) (noVary : Bool) (p : HParams) (i : Nat) (d : Dict Key Nat) (s : Store) : Except PyErr (Dict Key Nat) × Store :=
  match synthOf b (getpar (s.items p.items) (i + 1)) with
  | .error e => (.error e, s)
  | .ok x =>
    let y := setparsH p (if noVary then .blank else .yes) (i + 1) x.news (d, s)
    (.ok y.1, y.2)

/-- `params_out.basis = Basis(...)` and the line after it, /repo/radvel/basis.py 396-398, 738-739. -/
def finishH (nb : BasisName) (q : HParams) (x : Except PyErr (Dict Key Nat) × Store) : Except PyErr HParams × Store :=
  match x with
  | (.error e, s) => (.error e, s)
  | (.ok d, s) => (.ok { q with items := d, basis := s.bases.length, planetParameters := nb.words }, { s with bases := s.bases ++ [nb] })

/-- `to_synth`, /repo/radvel/basis.py 227-399; `b` is `self.name`. -/
noncomputable def toSynthH (dflt : ℝ) (b : BasisName) (noVary : Bool) (p : HParams) (s : Store) : Except PyErr HParams × Store :=
  let c := copyH dflt p s
  finishH .perTpEWK c.1 (planetsH (synthPlanetH b noVary p) (List.range p.numPlanets) c.1.items c.2)

/-- One planet of `from_synth`, /repo/radvel/basis.py 518-730; `self` is the `Basis` object, whose name is changed in some branches. -/
noncomputable def fromPlanetH (nb : BasisName) (keep : Bool) (self : Nat) (p : HParams) (i : Nat) (d : Dict Key Nat) (s : Store) : Except PyErr (Dict Key Nat) × Store :=
  match newsOf nb (decide (PName.tp ∈ p.planetParameters)) (getpar (s.items p.items) (i + 1)) with
  | .error e => (.error e, s)
  | .ok news =>
    let y := setparsH p .yes (i + 1) news (d, s)
    match delparsH (i + 1) (if keep then [] else delsOf nb) y.1 with
    | .error e => (.error e, y.2)
    | .ok d' => (.ok d', if renamesSelf nb then { y.2 with bases := y.2.bases.set self nb } else y.2)

/-- `self.from_synth(p, newbasis, keep)` for a valid new basis, /repo/radvel/basis.py 488-741. -/
noncomputable def fromSynthH (dflt : ℝ) (nb : BasisName) (keep : Bool) (self : Nat) (p : HParams) (s : Store) : Except PyErr HParams × Store :=
  let c := copyH dflt p s
  finishH nb c.1 (planetsH (fromPlanetH nb keep self p) (List.range p.numPlanets) c.1.items c.2)

/-- `p.basis.to_any_basis(p, newbasis)`, /repo/radvel/basis.py 106-118. -/
noncomputable def toAnyBasisH (dflt : ℝ) (nb : BasisName) (p : HParams) (s : Store) : Except PyErr HParams × Store :=
  match toSynthH dflt (s.basisName p.basis) true p s with
  | (.error e, s') => (.error e, s')
  | (.ok q, s') => fromSynthH dflt nb false p.basis q s'

/-- `q[k].value = x` and the like: the object is changed, for everyone who holds it. As in /repo/radvel/model.py 245-250. -/
def Store.write (s : Store) (q : HParams) (k : Key) (x : Parameter ℝ) : Except PyErr Store :=
  match q.items.get? k with
  | none => .error .keyError
  | some r => .ok { s with pars := s.pars.set r x }

end Radvel
