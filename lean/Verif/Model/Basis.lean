import Verif.Model.Params
import Verif.Model.Kepler
import Mathlib.Analysis.SpecialFunctions.Complex.Arg
import Mathlib.Analysis.SpecialFunctions.Log.Basic

/-!
# `radvel/basis.py` and `radvel/model.py` 253-357: conversions between bases, the RV model

Values are exact reals. `Basis` objects are created with the same number of planets as the parameters they belong to
(model.py 105), so `self.num_planets` is the parameter set's `numPlanets`. Simplification: where NumPy gives nan or `-inf` (logarithm of a number that is not positive, root of a negative one, division
by zero) the definitions below have the value of Lean's total functions; theorems about such conversions assume the positivity they need.
-/

namespace Radvel
open Real

/-- `np.arctan2(y, x)`; signed zeros are not modelled. Used for /repo/radvel/basis.py 155-222, 416-483. -/
noncomputable def arctan2 (y x : ℝ) : ℝ := Complex.arg ⟨x, y⟩

/-- The five synth quantities of one planet, /repo/radvel/basis.py 83. -/
structure Synth where
  per : ℝ
  tp : ℝ
  e : ℝ
  w : ℝ
  k : ℝ

/-- `_copy_params`, /repo/radvel/basis.py 49-57: a fresh `Parameters` of the same basis (its default keys first), updated with the
input's items. `dflt` stands for `None`. The `Parameter` objects are shared with the input; the conversions never mutate
them (they only bind new `Parameter` objects), so sharing does not show here; it is modelled in `Model/BasisHeap`. -/
def copyParams (dflt : ℝ) (p : Params ℝ) : Params ℝ :=
  let q := Params.init dflt p.numPlanets p.basis p.letters
  { q with items := q.items.update p.items }

/-- `_getpar(key)` for planet `n`, /repo/radvel/basis.py 249-253 and 518-522. -/
def getpar (d : Dict Key (Parameter ℝ)) (n : Nat) (x : PName) : Except PyErr ℝ :=
  match d.get? (.orb x n) with
  | some q => .ok q.value
  | none => .error .keyError

/-- The `Parameter` built by `_setpar`, /repo/radvel/basis.py 261-273 and 530-539: `vary` and `mcmcscale` are taken from the input if the
key exists there; `linear` falls back to its default. `newVary` is `''` (to_synth with noVary), or `True`. -/
def newPar (pin : Dict Key (Parameter ℝ)) (newVary : Vary) (key : Key) (v : ℝ) : Parameter ℝ :=
  match pin.get? key with
  | some q => { value := v, vary := q.vary, mcmcscale := q.mcmcscale }
  | none => { value := v, vary := newVary, mcmcscale := none }

/-- A sequence of `_setpar` calls for planet `n`, /repo/radvel/basis.py 255-273 and 524-539. -/
def setpars (pin : Dict Key (Parameter ℝ)) (newVary : Vary) (n : Nat) (news : List (PName × ℝ))
    (out : Dict Key (Parameter ℝ)) : Dict Key (Parameter ℝ) :=
  news.foldl (fun out x => out.set (.orb x.1 n) (newPar pin newVary (.orb x.1 n) x.2)) out

/-- A sequence of `_delpar` calls for planet `n`, /repo/radvel/basis.py 541-543. -/
def delpars (n : Nat) (dels : List PName) (out : Dict Key (Parameter ℝ)) : Except PyErr (Dict Key (Parameter ℝ)) :=
  dels.foldlM (fun out x => out.del (.orb x n)) out

/-- The formulas of `to_synth`, /repo/radvel/basis.py 276-387, for one planet; `g` is `_getpar`. -/
noncomputable def synthOf (b : BasisName) (g : PName → Except PyErr ℝ) : Except PyErr Synth := do
  match b with
  | .perTpEWK | .perTcTpEWK =>
    let per ← g .per
    let tp ← g .tp
    let e ← g .e
    let w ← g .w
    let k ← g .k
    return ⟨per, tp, e, w, k⟩
  | .perTcEWK =>
    let per ← g .per
    let tc ← g .tc
    let e ← g .e
    let w ← g .w
    let k ← g .k
    return ⟨per, timetransToTimeperi tc per e w, e, w, k⟩
  | .perTcSeWK =>
    let per ← g .per
    let tc ← g .tc
    let se ← g .se
    let w ← g .w
    let k ← g .k
    let e := se ^ 2
    return ⟨per, timetransToTimeperi tc per e w, e, w, k⟩
  | .perTcSecoswSesinwLogk =>
    let per ← g .per
    let tc ← g .tc
    let secosw ← g .secosw
    let sesinw ← g .sesinw
    let logk ← g .logk
    let k := exp logk
    let e := secosw ^ 2 + sesinw ^ 2
    let w := arctan2 sesinw secosw
    return ⟨per, timetransToTimeperi tc per e w, e, w, k⟩
  | .perTcSecoswSesinwK =>
    let per ← g .per
    let tc ← g .tc
    let secosw ← g .secosw
    let sesinw ← g .sesinw
    let k ← g .k
    let e := secosw ^ 2 + sesinw ^ 2
    let w := arctan2 sesinw secosw
    return ⟨per, timetransToTimeperi tc per e w, e, w, k⟩
  | .logperTcSecoswSesinwK =>
    let logper ← g .logper
    let tc ← g .tc
    let secosw ← g .secosw
    let sesinw ← g .sesinw
    let k ← g .k
    let per := exp logper
    let e := secosw ^ 2 + sesinw ^ 2
    let w := arctan2 sesinw secosw
    return ⟨per, timetransToTimeperi tc per e w, e, w, k⟩
  | .logperTcSecoswSesinwLogk =>
    let logper ← g .logper
    let tc ← g .tc
    let secosw ← g .secosw
    let sesinw ← g .sesinw
    let logk ← g .logk
    let per := exp logper
    let e := secosw ^ 2 + sesinw ^ 2
    let k := exp logk
    let w := arctan2 sesinw secosw
    return ⟨per, timetransToTimeperi tc per e w, e, w, k⟩
  | .perTcEcoswEsinwK =>
    let per ← g .per
    let tc ← g .tc
    let ecosw ← g .ecosw
    let esinw ← g .esinw
    let k ← g .k
    let e := √(ecosw ^ 2 + esinw ^ 2)
    let w := arctan2 esinw ecosw
    return ⟨per, timetransToTimeperi tc per e w, e, w, k⟩
  | .logperTpEWLogk =>
    let logper ← g .logper
    let tp ← g .tp
    let e ← g .e
    let w ← g .w
    let logk ← g .logk
    return ⟨exp logper, tp, e, w, exp logk⟩

/-- The five `_setpar` calls at the end of the loop of `to_synth`, /repo/radvel/basis.py 390-394. -/
def Synth.news (s : Synth) : List (PName × ℝ) := [(.per, s.per), (.tp, s.tp), (.e, s.e), (.w, s.w), (.k, s.k)]

/-- `to_synth` for a `Parameters` object, /repo/radvel/basis.py 227-399; `b` is `basis_name` (default `self.name`).
The DataFrame branches (MCMC chains) apply the same formulas to columns and are modelled in `Model/Chains`. -/
noncomputable def toSynth (dflt : ℝ) (b : BasisName) (noVary : Bool) (p : Params ℝ) : Except PyErr (Params ℝ) := do
  let out0 := copyParams dflt p
  let out ← (List.range p.numPlanets).foldlM (fun out i => do
    let s ← synthOf b (getpar p.items (i + 1))
    return setpars p.items (if noVary then .blank else .yes) (i + 1) s.news out) out0.items
  return { out0 with items := out, basis := .perTpEWK, planetParameters := BasisName.words .perTpEWK }

/-- Read `tp`, or compute it from `tc` and store it, /repo/radvel/basis.py 587-592 (repeated in 613-618, 637-642, 663-668, 690-695, 714-719):
the value and the extra `_setpar`. -/
noncomputable def readTp (hasTp : Bool) (g : PName → Except PyErr ℝ) (per e w : ℝ) : Except PyErr (ℝ × List (PName × ℝ)) :=
  if hasTp then do
    let tp ← g .tp
    return (tp, [])
  else do
    let tc ← g .tc
    let tp := timetransToTimeperi tc per e w
    return (tp, [(.tp, tp)])

/-- The `_setpar` calls of `from_synth` for one planet, in order, /repo/radvel/basis.py 547-730.
`hasTp` is `'tp' in params_in.planet_parameters`. -/
noncomputable def newsOf (nb : BasisName) (hasTp : Bool) (g : PName → Except PyErr ℝ) : Except PyErr (List (PName × ℝ)) := do
  match nb with
  | .perTpEWK => return []
  | .perTcEWK | .perTcTpEWK =>
    let per ← g .per
    let e ← g .e
    let w ← g .w
    let tp ← g .tp
    return [(.tc, timeperiToTimetrans tp per e w false), (.w, w)]
  | .perTcSeWK =>
    let per ← g .per
    let e ← g .e
    let w ← g .w
    let tp ← g .tp
    return [(.tc, timeperiToTimetrans tp per e w false), (.w, w), (.se, √e)]
  | .perTcSecoswSesinwLogk =>
    let per ← g .per
    let e ← g .e
    let w ← g .w
    let k ← g .k
    let (tp, pre) ← readTp hasTp g per e w
    return pre ++ [(.secosw, √e * cos w), (.sesinw, √e * sin w), (.logk, log k), (.tc, timeperiToTimetrans tp per e w false)]
  | .perTcSecoswSesinwK =>
    let per ← g .per
    let e ← g .e
    let w ← g .w
    let k ← g .k
    let (tp, pre) ← readTp hasTp g per e w
    return pre ++ [(.secosw, √e * cos w), (.sesinw, √e * sin w), (.k, k), (.tc, timeperiToTimetrans tp per e w false)]
  | .logperTcSecoswSesinwK =>
    let per ← g .per
    let e ← g .e
    let w ← g .w
    let k ← g .k
    let (tp, pre) ← readTp hasTp g per e w
    return pre ++ [(.logper, log per), (.secosw, √e * cos w), (.sesinw, √e * sin w), (.k, k),
      (.tc, timeperiToTimetrans tp per e w false)]
  | .logperTcSecoswSesinwLogk =>
    let per ← g .per
    let e ← g .e
    let w ← g .w
    let k ← g .k
    let (tp, pre) ← readTp hasTp g per e w
    return pre ++ [(.logper, log per), (.secosw, √e * cos w), (.sesinw, √e * sin w), (.logk, log k),
      (.tc, timeperiToTimetrans tp per e w false)]
  | .perTcEcoswEsinwK =>
    let per ← g .per
    let e ← g .e
    let w ← g .w
    let k ← g .k
    let (tp, pre) ← readTp hasTp g per e w
    return pre ++ [(.ecosw, e * cos w), (.esinw, e * sin w), (.k, k), (.tc, timeperiToTimetrans tp per e w false)]
  | .logperTpEWLogk =>
    let per ← g .per
    let e ← g .e
    let w ← g .w
    let k ← g .k
    let (tp, pre) ← readTp hasTp g per e w
    return pre ++ [(.logper, log per), (.logk, log k), (.tc, timeperiToTimetrans tp per e w false)]

/-- The `_delpar` calls of `from_synth` when `keep=False`, in order, /repo/radvel/basis.py 556-557, 578-580, 599-603, 624-627, 649-653, 675-680,
701-704, 725-727. Note that `logper tp e w logk` does not delete the `tc` it has just set. -/
def delsOf : BasisName → List PName
  | .perTpEWK => []
  | .perTcTpEWK => []
  | .perTcEWK => [.tp]
  | .perTcSeWK => [.tp, .e]
  | .perTcSecoswSesinwLogk => [.tp, .e, .w, .k]
  | .perTcSecoswSesinwK => [.tp, .e, .w]
  | .logperTcSecoswSesinwK => [.per, .tp, .e, .w]
  | .logperTcSecoswSesinwLogk => [.per, .tp, .e, .w, .k]
  | .perTcEcoswEsinwK => [.tp, .e, .w]
  | .logperTpEWLogk => [.per, .k]

/-- The branches that end with `self.name = newbasis`, /repo/radvel/basis.py 629, 655, 682, 706, 729. -/
def renamesSelf : BasisName → Bool
  | .perTcSecoswSesinwK | .logperTcSecoswSesinwK | .logperTcSecoswSesinwLogk | .perTcEcoswEsinwK | .logperTpEWLogk => true
  | _ => false

/-- `from_synth` for a `Parameters` object and a valid new basis, /repo/radvel/basis.py 488-741. -/
noncomputable def fromSynth (dflt : ℝ) (nb : BasisName) (keep : Bool) (p : Params ℝ) : Except PyErr (Params ℝ) := do
  let out0 := copyParams dflt p
  let out ← (List.range p.numPlanets).foldlM (fun out i => do
    let news ← newsOf nb (decide (PName.tp ∈ p.planetParameters)) (getpar p.items (i + 1))
    delpars (i + 1) (if keep then [] else delsOf nb) (setpars p.items .yes (i + 1) news out)) out0.items
  return { out0 with items := out, basis := nb, planetParameters := nb.words }

/-- `self.name` after a successful `from_synth(params_in, newbasis)`, /repo/radvel/basis.py 516 and 629, 655, 682, 706, 729: the assignment
sits inside the loop over planets. -/
def selfNameAfter (self nb : BasisName) (numPlanets : Nat) : BasisName :=
  if numPlanets ≥ 1 ∧ renamesSelf nb then nb else self

/-- `params.basis.to_any_basis(params, newbasis)`, /repo/radvel/basis.py 106-118. -/
noncomputable def toAnyBasis (dflt : ℝ) (nb : BasisName) (p : Params ℝ) : Except PyErr (Params ℝ) := do
  let q ← toSynth dflt p.basis true p
  fromSynth dflt nb false q

/-- The input `params` after that call: `self` is `params.basis`, so its name may have changed, /repo/radvel/basis.py 116-117 and 629 etc. -/
def inputAfter (nb : BasisName) (p : Params ℝ) : Params ℝ :=
  { p with basis := selfNameAfter p.basis nb p.numPlanets }

/-! ### Vector versions -/

/-- Column 0 of the five rows of one planet. Models /repo/radvel/basis.py 144-222, 414-483. -/
structure Block where
  x0 : ℝ
  x1 : ℝ
  x2 : ℝ
  x3 : ℝ
  x4 : ℝ

/-- The formulas of `v_to_synth` for one planet, /repo/radvel/basis.py 155-222. No branch exists for the print basis. -/
noncomputable def vToSynthBlock (b : BasisName) (v : Block) : Block :=
  match b with
  | .perTpEWK | .perTcTpEWK => v
  | .perTcEWK => { v with x1 := timetransToTimeperi v.x1 v.x0 v.x2 v.x3 }
  | .perTcSeWK =>
    let e := v.x2 ^ 2
    { v with x2 := e, x1 := timetransToTimeperi v.x1 v.x0 e v.x3 }
  | .perTcSecoswSesinwLogk =>
    let e := v.x2 ^ 2 + v.x3 ^ 2
    let w := arctan2 v.x3 v.x2
    { v with x4 := exp v.x4, x2 := e, x3 := w, x1 := timetransToTimeperi v.x1 v.x0 e w }
  | .perTcSecoswSesinwK =>
    let e := v.x2 ^ 2 + v.x3 ^ 2
    let w := arctan2 v.x3 v.x2
    { v with x2 := e, x3 := w, x1 := timetransToTimeperi v.x1 v.x0 e w }
  | .logperTcSecoswSesinwK =>
    let e := v.x2 ^ 2 + v.x3 ^ 2
    let w := arctan2 v.x3 v.x2
    let per := exp v.x0
    { v with x2 := e, x3 := w, x0 := per, x1 := timetransToTimeperi v.x1 per e w }
  | .logperTcSecoswSesinwLogk =>
    let e := v.x2 ^ 2 + v.x3 ^ 2
    let w := arctan2 v.x3 v.x2
    let per := exp v.x0
    { v with x2 := e, x3 := w, x0 := per, x4 := exp v.x4, x1 := timetransToTimeperi v.x1 per e w }
  | .perTcEcoswEsinwK =>
    let e := √(v.x2 ^ 2 + v.x3 ^ 2)
    let w := arctan2 v.x3 v.x2
    { v with x2 := e, x3 := w, x1 := timetransToTimeperi v.x1 v.x0 e w }
  | .logperTpEWLogk => { v with x4 := exp v.x4, x0 := exp v.x0 }

/-- Rows whose flag is overwritten by `setvary` in `v_to_synth`, /repo/radvel/basis.py 160, 168, 178, 187, 197, 208, 217, 222. -/
def vToSynthFlags : BasisName → List Nat
  | .perTpEWK | .perTcTpEWK => []
  | .perTcEWK => [1]
  | .perTcSeWK => [2, 1]
  | .perTcSecoswSesinwLogk => [4, 2, 3, 1]
  | .perTcSecoswSesinwK => [2, 3, 1]
  | .logperTcSecoswSesinwK => [2, 3, 0, 1]
  | .logperTcSecoswSesinwLogk => [2, 3, 0, 4, 1]
  | .perTcEcoswEsinwK => [3, 2, 1]
  | .logperTpEWLogk => [4, 0]

/-- The formulas of `v_from_synth` for one planet, /repo/radvel/basis.py 416-483. -/
noncomputable def vFromSynthBlock (nb : BasisName) (v : Block) : Block :=
  let tc := timeperiToTimetrans v.x1 v.x0 v.x2 v.x3 false
  match nb with
  | .perTpEWK | .perTcTpEWK => v
  | .perTcEWK => { v with x1 := tc }
  | .perTcSeWK => { v with x1 := tc, x2 := √v.x2 }
  | .perTcSecoswSesinwLogk => { v with x1 := tc, x2 := √v.x2 * cos v.x3, x3 := √v.x2 * sin v.x3, x4 := log v.x4 }
  | .perTcSecoswSesinwK => { v with x1 := tc, x2 := √v.x2 * cos v.x3, x3 := √v.x2 * sin v.x3 }
  | .logperTcSecoswSesinwK => { v with x1 := tc, x2 := √v.x2 * cos v.x3, x3 := √v.x2 * sin v.x3, x0 := log v.x0 }
  | .logperTcSecoswSesinwLogk =>
    { v with x1 := tc, x2 := √v.x2 * cos v.x3, x3 := √v.x2 * sin v.x3, x0 := log v.x0, x4 := log v.x4 }
  | .perTcEcoswEsinwK => { v with x1 := tc, x2 := v.x2 * cos v.x3, x3 := v.x2 * sin v.x3 }
  | .logperTpEWLogk => { v with x0 := log v.x0, x4 := log v.x4 }

/-- Rows whose flag is set by `setvary` in `v_from_synth`, /repo/radvel/basis.py 421, 429, 439, 448, 458, 469, 478, 483. Line 421 names row 3 although
row 1 was converted. -/
def vFromSynthFlags : BasisName → List Nat
  | .perTpEWK | .perTcTpEWK => []
  | .perTcEWK => [3]
  | .perTcSeWK => [1, 2]
  | .perTcSecoswSesinwLogk => [1, 2, 3, 4]
  | .perTcSecoswSesinwK => [1, 2, 3]
  | .logperTcSecoswSesinwK => [1, 2, 3, 0]
  | .logperTcSecoswSesinwLogk => [1, 2, 3, 0, 4]
  | .perTcEcoswEsinwK => [1, 2, 3]
  | .logperTpEWLogk => [0, 4]

/-- Replace column 0 of a row and, if row `j` is listed, column 1. Simplification: `setvary` also writes `None` (nan) into column 2, which is
not modelled. Models /repo/radvel/basis.py 134-222, 409-483. -/
def Row.conv (r : Row ℝ) (flags : List Nat) (flag : Bool) (j : Nat) (v : ℝ) : Row ℝ :=
  { r with value := v, vary := if j ∈ flags then flag else r.vary }

/-- One planet's block (rows `5 i .. 5 i + 4`) of the array, rewritten by `f`, /repo/radvel/basis.py 144-222 and 414-483. -/
def convBlock (f : Block → Block) (flags : List Nat) (flag : Bool) (rows : List (Row ℝ)) (i : Nat) : Except PyErr (List (Row ℝ)) :=
  match rows[5 * i]?, rows[5 * i + 1]?, rows[5 * i + 2]?, rows[5 * i + 3]?, rows[5 * i + 4]? with
  | some r0, some r1, some r2, some r3, some r4 =>
    let v := f ⟨r0.value, r1.value, r2.value, r3.value, r4.value⟩
    .ok (((((rows.set (5 * i) (r0.conv flags flag 0 v.x0)).set (5 * i + 1) (r1.conv flags flag 1 v.x1)).set (5 * i + 2)
      (r2.conv flags flag 2 v.x2)).set (5 * i + 3) (r3.conv flags flag 3 v.x3)).set (5 * i + 4) (r4.conv flags flag 4 v.x4))
  | _, _, _, _, _ => .error .indexError

/-- `v_to_synth(vector)` with the default `noVary=True`, /repo/radvel/basis.py 125-224. -/
noncomputable def vToSynth (b : BasisName) (N : Nat) (rows : List (Row ℝ)) : Except PyErr (List (Row ℝ)) :=
  if b = .perTpEWK ∨ b = .perTcTpEWK then .ok rows
  else (List.range N).foldlM (fun rows i => convBlock (vToSynthBlock b) (vToSynthFlags b) false rows i) rows

/-- `v_from_synth(vector, newbasis)`, /repo/radvel/basis.py 401-485. -/
noncomputable def vFromSynth (nb : BasisName) (N : Nat) (rows : List (Row ℝ)) : Except PyErr (List (Row ℝ)) :=
  if nb = .perTpEWK ∨ nb = .perTcTpEWK then .ok rows
  else (List.range N).foldlM (fun rows i => convBlock (vFromSynthBlock nb) (vFromSynthFlags nb) true rows i) rows

/-! ### The RV model -/

/-- Sum of two velocities; `none` is nan. Used for /repo/radvel/model.py 292-294, 343. -/
def addNan (a b : Option ℝ) : Option ℝ :=
  match a, b with
  | some x, some y => some (x + y)
  | _, _ => none

/-- The velocity function of one planet: `kepler.rv_drive(t, [per, tp, e, w, k])`. Models /repo/radvel/kepler.py 20-63. -/
abbrev Drive := ℝ → Synth → Option ℝ

/-- `rv_drive` as a `Drive`. Models /repo/radvel/model.py 343. -/
noncomputable def driveOf (solve : ℝ → ℝ → Option ℝ) (formula : ℝ → ℝ → ℝ → ℝ → ℝ) : Drive :=
  fun t s => rvDrive solve formula t s.per s.tp s.e s.w s.k

/-- One turn of the loop of `_standard_rv_calc` for planet `i + 1`, /repo/radvel/model.py 330-343. -/
def addPlanet (drive : Drive) (t : ℝ) (synthRows : List (Row ℝ)) (vel : Option ℝ) (i : Nat) : Except PyErr (Option ℝ) :=
  match synthRows[5 * i]?, synthRows[5 * i + 1]?, synthRows[5 * i + 2]?, synthRows[5 * i + 3]?, synthRows[5 * i + 4]? with
  | some r0, some r1, some r2, some r3, some r4 =>
    .ok (addNan vel (drive t ⟨r0.value, r1.value, r2.value, r3.value, r4.value⟩))
  | _, _, _, _, _ => .error .indexError

/-- `_standard_rv_calc` at one time, /repo/radvel/model.py 322-344; `planet = some i` is `planet_num = i + 1`. -/
noncomputable def standardRvCalc (drive : Drive) (t : ℝ) (s : VState ℝ) (planet : Option Nat) : Except PyErr (Option ℝ) := do
  let synthRows ← vToSynth s.params.basis s.params.numPlanets s.rows
  let planets := match planet with
    | none => List.range s.params.numPlanets
    | some i => [i]
  planets.foldlM (addPlanet drive t synthRows) (some 0)

/-- A trend coefficient read by `GeneralRVModel.__call__`, `self.vector.vector[self.vector.indices[key]][0]`, /repo/radvel/model.py 293-294. -/
def trendCoef (s : VState ℝ) (key : Key) : Except PyErr ℝ :=
  match s.indices.get? key with
  | none => .error .keyError
  | some i =>
    match s.rows[i]? with
    | none => .error .indexError
    | some r => .ok r.value

/-- `GeneralRVModel.__call__` of an `RVModel` at one time, /repo/radvel/model.py 283-295 and 347-357. -/
noncomputable def modelCall (drive : Drive) (timeBase : ℝ) (s : VState ℝ) (planet : Option Nat) (t : ℝ) : Except PyErr (Option ℝ) := do
  let vel ← standardRvCalc drive t s planet
  let dvdt ← trendCoef s .dvdt
  let curv ← trendCoef s .curv
  return addNan (addNan vel (some (dvdt * (t - timeBase)))) (some (curv * (t - timeBase) ^ 2))

end Radvel
