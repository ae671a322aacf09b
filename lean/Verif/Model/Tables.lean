import Verif.Model.Chains
import Verif.Model.Report

/-!
# `from_synth` for a DataFrame (`radvel/basis.py` 488-741) and the samples of the report (`radvel/report.py` 58-90)

Cells may be nan (`none`). Simplifications: infinite cells do not occur (the logarithm of 0 is taken to be nan); the labels of rows are numbers.
-/

namespace Radvel
open Real

/-- The cell of a column of planet `m`. Models /repo/radvel/basis.py 518-522. -/
def Frame.cell {n : Nat} (f : Frame n) (m : Nat) (j : Fin n) (x : PName) : Option ℝ := (f.get? (.orb x m)).bind fun col => col j

/-- One cell of `timeperi_to_timetrans` on columns, /repo/radvel/orbit.py 33-69: as in `timetransCell` the formula is used for all eccentricities; nan if an argument is nan or the radicand is negative. -/
noncomputable def timeperiCell (tp per e om : Option ℝ) : Option ℝ :=
  match tp, per, e, om with
  | some tp, some per, some e, some om =>
    if (1 - e) / (1 + e) < 0 then none
    else
      let ee := 2 * arctan (tan ((π / 2 - om) / 2) * √((1 - e) / (1 + e)))
      some (tp + per / (2 * π) * (ee - e * sin ee))
  | _, _, _, _ => none

/-- `timetrans_to_timeperi` on cells that may be nan, /repo/radvel/orbit.py 6-30. -/
noncomputable def timetransCell? (tc per e om : Option ℝ) : Option ℝ :=
  match tc, per, e, om with
  | some tc, some per, some e, some om => timetransCell tc per e om
  | _, _, _, _ => none

/-- `np.sqrt` of a cell. Used for /repo/radvel/basis.py 574, 594-595. -/
noncomputable def sqrtCell (x : Option ℝ) : Option ℝ := x.bind fun x => if x < 0 then none else some √x

/-- `np.log` of a cell. Used for /repo/radvel/basis.py 596, 643, 721. -/
noncomputable def logCell (x : Option ℝ) : Option ℝ := x.bind fun x => if x ≤ 0 then none else some (log x)

/-- The product of a cell and a function of another cell. Used for /repo/radvel/basis.py 594-595, 696-697. -/
noncomputable def mulCell (x : Option ℝ) (g : ℝ → ℝ) (w : Option ℝ) : Option ℝ := x.bind fun x => w.map fun w => x * g w

/-- The time of conjunction of a row. Models /repo/radvel/basis.py 553, 565, 572, 597, 622, 647, 673, 699, 723. -/
noncomputable def tcCell (v : PName → Option ℝ) : Option ℝ := timeperiCell (v .tp) (v .per) (v .e) (v .w)

/-- The columns that `from_synth` sets for one planet, in order, with their formulas, /repo/radvel/basis.py 547-730; `v` are the cells of the row, with the time of periastron that was read or computed. -/
noncomputable def fromFormulas : BasisName → List (PName × ((PName → Option ℝ) → Option ℝ))
  | .perTpEWK => []
  | .perTcEWK | .perTcTpEWK => [(.tc, tcCell), (.w, fun v => v .w)]
  | .perTcSeWK => [(.tc, tcCell), (.w, fun v => v .w), (.se, fun v => sqrtCell (v .e))]
  | .perTcSecoswSesinwLogk =>
    [(.secosw, fun v => mulCell (sqrtCell (v .e)) cos (v .w)), (.sesinw, fun v => mulCell (sqrtCell (v .e)) sin (v .w)), (.logk, fun v => logCell (v .k)), (.tc, tcCell)]
  | .perTcSecoswSesinwK =>
    [(.secosw, fun v => mulCell (sqrtCell (v .e)) cos (v .w)), (.sesinw, fun v => mulCell (sqrtCell (v .e)) sin (v .w)), (.k, fun v => v .k), (.tc, tcCell)]
  | .logperTcSecoswSesinwK =>
    [(.logper, fun v => logCell (v .per)), (.secosw, fun v => mulCell (sqrtCell (v .e)) cos (v .w)), (.sesinw, fun v => mulCell (sqrtCell (v .e)) sin (v .w)), (.k, fun v => v .k), (.tc, tcCell)]
  | .logperTcSecoswSesinwLogk =>
    [(.logper, fun v => logCell (v .per)), (.secosw, fun v => mulCell (sqrtCell (v .e)) cos (v .w)), (.sesinw, fun v => mulCell (sqrtCell (v .e)) sin (v .w)), (.logk, fun v => logCell (v .k)), (.tc, tcCell)]
  | .perTcEcoswEsinwK =>
    [(.ecosw, fun v => mulCell (v .e) cos (v .w)), (.esinw, fun v => mulCell (v .e) sin (v .w)), (.k, fun v => v .k), (.tc, tcCell)]
  | .logperTpEWLogk => [(.logper, fun v => logCell (v .per)), (.logk, fun v => logCell (v .k)), (.tc, tcCell)]

/-- The bases whose branch looks at `params_in.planet_parameters`, /repo/radvel/basis.py 587, 613, 637, 663, 690, 714. -/
def looksAtNames : BasisName → Bool
  | .perTpEWK | .perTcEWK | .perTcTpEWK | .perTcSeWK => false
  | _ => true

/-- The `_setpar` calls for one planet on a DataFrame, /repo/radvel/basis.py 524-528: `rows j` are the cells of row `j`. -/
noncomputable def setColumns {n : Nat} (m : Nat) (rows : Fin n → PName → Option ℝ) (l : List (PName × ((PName → Option ℝ) → Option ℝ))) (out : Frame n) : Frame n :=
  l.foldl (fun out x => out.set (.orb x.1 m) (fun j => x.2 (rows j))) out

/-- The `_delpar` calls on a DataFrame, /repo/radvel/basis.py 541-545: `drop` looks for a row of that name, which does not exist, and raises `KeyError`. -/
def dropColumns {n : Nat} (l : List PName) (out : Frame n) : Except PyErr (Frame n) := if l = [] then .ok out else .error .keyError

/-- One turn of the loop over planets of `from_synth` for a DataFrame, /repo/radvel/basis.py 516-730; `attr` is the attribute `planet_parameters` of the table, which only tables made by `from_synth` have (`copy` does not
keep it); without it the attribute access raises. -/
noncomputable def Frame.fromPlanet {n : Nat} (attr : Option (List PName)) (nb : BasisName) (keep : Bool) (f out : Frame n) (i : Nat) : Except PyErr (Frame n) :=
  let has (x : PName) := f.has (.orb x (i + 1))
  let dels := if keep then [] else delsOf nb
  if nb = .perTpEWK then .ok out
  else if looksAtNames nb = false then
    if [PName.per, .e, .w, .tp].all has then dropColumns dels (setColumns (i + 1) (f.cell (i + 1)) (fromFormulas nb) out) else .error .keyError
  else if [PName.per, .e, .w, .k].all has then
    match attr with
    | none => .error .attributeError
    | some names =>
      if .tp ∈ names then
        if has .tp then dropColumns dels (setColumns (i + 1) (f.cell (i + 1)) (fromFormulas nb) out) else .error .keyError
      else if has .tc then
        let tp (j : Fin n) := timetransCell? (f.cell (i + 1) j .tc) (f.cell (i + 1) j .per) (f.cell (i + 1) j .e) (f.cell (i + 1) j .w)
        let rows (j : Fin n) (x : PName) := if x = .tp then tp j else f.cell (i + 1) j x
        dropColumns dels (setColumns (i + 1) rows ((.tp, fun v => v .tp) :: fromFormulas nb) out)
      else .error .keyError
  else .error .keyError

/-- `from_synth` for a DataFrame, /repo/radvel/basis.py 488-741; `N` is `self.num_planets`. The attributes `basis` and `planet_parameters` of the result are left out. -/
noncomputable def Frame.fromSynth {n : Nat} (attr : Option (List PName)) (nb : BasisName) (keep : Bool) (N : Nat) (f : Frame n) : Except PyErr (Frame n) :=
  (List.range N).foldlM (f.fromPlanet attr nb keep) f

/-- `to_any_basis` for a DataFrame, /repo/radvel/basis.py 106-118; `b` is `self.name`, `N` is `self.num_planets`. -/
noncomputable def Chain.toAnyBasis {n : Nat} (b nb : BasisName) (N : Nat) (c : Chain n) : Except PyErr (Frame n) :=
  match c.toSynth b N with
  | .error e => .error e
  | .ok f => f.fromSynth none nb false N

/-- `if p not in chains.columns: chains[p] = post.params[p].value`, /repo/radvel/report.py 73-75. -/
def fillColumns {n : Nat} (p : Params ℝ) (c : Chain n) : Chain n :=
  p.items.foldl (fun c x => if c.has x.1 then c else c.set x.1 (fun _ => x.2.value)) c

/-- `self.chains` of a report, /repo/radvel/report.py 67-82: `p` is `post.params`, `fit` is `planet.fitting_basis`. -/
noncomputable def reportSamples {n : Nat} (dflt : ℝ) (p : Params ℝ) (fit : BasisName) (c : Chain n) : Except PyErr (Frame n) :=
  match reportConvert dflt p with
  | .error e => .error e
  | .ok q =>
    match (fillColumns q c).toSynth fit q.numPlanets with
    | .error e => .error e
    | .ok f => f.fromSynth none .perTcTpEWK true q.numPlanets

end Radvel
