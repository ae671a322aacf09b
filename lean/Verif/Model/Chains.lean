import Verif.Model.Basis

/-!
# Samples as tables: `to_synth` for a DataFrame (`radvel/basis.py` 227-399) and quantiles

A table of `n` samples is an ordered dictionary of columns `Fin n → ℝ`; after a conversion a cell may be nan (`none`). Simplification: the samples themselves are finite
numbers.
-/

namespace Radvel
open Real

/-- Samples: a `DataFrame` with `n` rows. Models /repo/radvel/driver.py 255, /repo/radvel/basis.py 241-243. -/
abbrev Chain (n : Nat) := Dict Key (Fin n → ℝ)

/-- A `DataFrame` whose cells may be nan. Models /repo/radvel/basis.py 241-243. -/
abbrev Frame (n : Nat) := Dict Key (Fin n → Option ℝ)

/-- `params_in.copy()`, /repo/radvel/basis.py 243. -/
def Chain.toFrame {n : Nat} (c : Chain n) : Frame n := c.map (fun x => (x.1, fun j => some (x.2 j)))

/-- One cell of `timetrans_to_timeperi` on columns, /repo/radvel/orbit.py 6-30: `if ecc >= 1` raises `ValueError` for a column, so that the formula is used for all
eccentricities; a negative radicand gives nan. Simplification: the division by zero at `ecc = -1` has the value 0. -/
noncomputable def timetransCell (tc per e om : ℝ) : Option ℝ :=
  if (1 - e) / (1 + e) < 0 then none
  else
    let ee := 2 * arctan (tan ((π / 2 - om) / 2) * √((1 - e) / (1 + e)))
    some (tc - per / (2 * π) * (ee - e * sin ee))

/-- The synth quantities of one planet in one row. Models /repo/radvel/basis.py 390-394. -/
structure SynthCell where
  per : ℝ
  tp : Option ℝ
  e : ℝ
  w : ℝ
  k : ℝ

/-- The columns that `to_synth` reads for one planet, /repo/radvel/basis.py 276-387. -/
def synthReads : BasisName → List PName
  | .perTpEWK => [.per, .tp, .e, .w, .k]
  | .perTcTpEWK => [.per, .tp, .e, .w, .k]
  | .perTcEWK => [.per, .tc, .e, .w, .k]
  | .perTcSeWK => [.per, .tc, .se, .w, .k]
  | .perTcSecoswSesinwLogk => [.per, .tc, .secosw, .sesinw, .logk]
  | .perTcSecoswSesinwK => [.per, .tc, .secosw, .sesinw, .k]
  | .logperTcSecoswSesinwK => [.logper, .tc, .secosw, .sesinw, .k]
  | .logperTcSecoswSesinwLogk => [.logper, .tc, .secosw, .sesinw, .logk]
  | .perTcEcoswEsinwK => [.per, .tc, .ecosw, .esinw, .k]
  | .logperTpEWLogk => [.logper, .tp, .e, .w, .logk]

/-- The formulas of `to_synth` in one row, /repo/radvel/basis.py 276-387; `v` are the cells of the columns that are read. -/
noncomputable def synthCell (b : BasisName) (v : PName → ℝ) : SynthCell :=
  match b with
  | .perTpEWK | .perTcTpEWK => ⟨v .per, some (v .tp), v .e, v .w, v .k⟩
  | .perTcEWK => ⟨v .per, timetransCell (v .tc) (v .per) (v .e) (v .w), v .e, v .w, v .k⟩
  | .perTcSeWK => ⟨v .per, timetransCell (v .tc) (v .per) (v .se ^ 2) (v .w), v .se ^ 2, v .w, v .k⟩
  | .perTcSecoswSesinwLogk =>
    let e := v .secosw ^ 2 + v .sesinw ^ 2
    let w := arctan2 (v .sesinw) (v .secosw)
    ⟨v .per, timetransCell (v .tc) (v .per) e w, e, w, exp (v .logk)⟩
  | .perTcSecoswSesinwK =>
    let e := v .secosw ^ 2 + v .sesinw ^ 2
    let w := arctan2 (v .sesinw) (v .secosw)
    ⟨v .per, timetransCell (v .tc) (v .per) e w, e, w, v .k⟩
  | .logperTcSecoswSesinwK =>
    let e := v .secosw ^ 2 + v .sesinw ^ 2
    let w := arctan2 (v .sesinw) (v .secosw)
    ⟨exp (v .logper), timetransCell (v .tc) (exp (v .logper)) e w, e, w, v .k⟩
  | .logperTcSecoswSesinwLogk =>
    let e := v .secosw ^ 2 + v .sesinw ^ 2
    let w := arctan2 (v .sesinw) (v .secosw)
    ⟨exp (v .logper), timetransCell (v .tc) (exp (v .logper)) e w, e, w, exp (v .logk)⟩
  | .perTcEcoswEsinwK =>
    let e := √(v .ecosw ^ 2 + v .esinw ^ 2)
    let w := arctan2 (v .esinw) (v .ecosw)
    ⟨v .per, timetransCell (v .tc) (v .per) e w, e, w, v .k⟩
  | .logperTpEWLogk => ⟨exp (v .logper), some (v .tp), v .e, v .w, exp (v .logk)⟩

/-- The cell of a column of planet `m`. Models /repo/radvel/basis.py 249-253. -/
def Chain.cell {n : Nat} (c : Chain n) (m : Nat) (j : Fin n) (x : PName) : ℝ :=
  match c.get? (.orb x m) with
  | some col => col j
  | none => 0

/-- One turn of the loop over planets for a DataFrame, /repo/radvel/basis.py 247-394: a missing column raises; the five columns are replaced or appended. -/
noncomputable def Chain.synthPlanet {n : Nat} (c : Chain n) (b : BasisName) (out : Frame n) (i : Nat) : Except PyErr (Frame n) :=
  if (synthReads b).all (fun x => c.has (.orb x (i + 1))) then
    let cell (j : Fin n) := synthCell b (c.cell (i + 1) j)
    .ok (((((out.set (.orb .per (i + 1)) (fun j => some (cell j).per)).set (.orb .tp (i + 1)) (fun j => (cell j).tp)).set (.orb .e (i + 1)) (fun j => some (cell j).e)).set
      (.orb .w (i + 1)) (fun j => some (cell j).w)).set (.orb .k (i + 1)) (fun j => some (cell j).k))
  else .error .keyError

/-- `to_synth` for a DataFrame, /repo/radvel/basis.py 227-399; `N` is `self.num_planets`. -/
noncomputable def Chain.toSynth {n : Nat} (c : Chain n) (b : BasisName) (N : Nat) : Except PyErr (Frame n) :=
  (List.range N).foldlM (c.synthPlanet b) c.toFrame

/-- `Series.quantile(q)` of pandas with the default linear interpolation, on sorted numbers: nan (`none`) if there are none. Used for /repo/radvel/driver.py 261, 265. -/
noncomputable def quantileSorted (s : List ℝ) (q : ℝ) : Option ℝ :=
  let pos := ((s.length : ℝ) - 1) * q
  match s[⌊pos⌋₊]? with
  | none => none
  | some lo => some (lo + (s.getD (⌊pos⌋₊ + 1) lo - lo) * (pos - ⌊pos⌋₊))

/-- `quantile` of a column; nan cells are left out. Used for /repo/radvel/driver.py 261, 265. -/
noncomputable def quantile {n : Nat} (col : Fin n → Option ℝ) (q : ℝ) : Option ℝ :=
  quantileSorted (((List.ofFn col).reduceOption).mergeSort (fun a b => decide (a ≤ b))) q

end Radvel
