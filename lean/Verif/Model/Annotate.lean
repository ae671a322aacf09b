import Verif.Model.Corner
import Verif.Model.Postprocess

/-!
# The text of the phase panels: `MultipanelPlot.plot_phasefold`, `radvel/plot/orbit_plots.py` 332-430

Reals are exact. A line of text is kept as its label, its numbers and its unit; the text put around them (`$\mathregular{...}$`, `=`, `\pm`) and the box they are drawn in are left out.
-/

namespace Radvel

/-- The numbers of a line, /repo/radvel/plot/orbit_plots.py 350, 362-365, 402-405, 420-423: one number with two decimals (`%4.2f`), or a value with its error. -/
inductive AnoNums
  | plain (v : ℝ)
  | interval (val err : ℝ)

/-- A line of the text of a phase panel. Models /repo/radvel/plot/orbit_plots.py 350, 362-365, 402-405, 420-423. -/
structure AnoLine where
  label : Text
  nums : AnoNums
  unit : Text

/-- `if err > 1e-15: val, err, errlow = sigfig(val, err) ... else ...`, /repo/radvel/plot/orbit_plots.py 360-365, 400-405, 418-423. `none`: the loop of `sigfig` is still running after `fuel` turns. Simplification: a
whole error may be a Python integer, which is written without the decimal point; `sigfig` treats both the same (`sigfig_intError`). -/
noncomputable def anoNums (fuel : Nat) (val err : ℝ) : Option AnoNums :=
  if err > 1e-15 then
    match sigfig fuel val (strFloat err) none with
    | none => none
    | some (v, e, _) => some (.interval v e)
  else some (.plain (pyRound val 2))

/-- `label.replace("$", "")`. Used for /repo/radvel/plot/orbit_plots.py 350, 363, 365, 403, 405. -/
def noDollar (t : Text) : Text := t.filter (· ≠ '$')

/-- `print_params` with `units`, /repo/radvel/plot/orbit_plots.py 342-343; `plot.latex` is in /repo/radvel/plot/__init__.py 9-12. -/
def printParams : List (PName × Text) := [(.per, "days".toList), (.k, "m s$^{\\mathregular{-1}}$".toList), (.e, [])]

/-- One turn of the loop over `print_params`, /repo/radvel/plot/orbit_plots.py 334, 347-365: `params` are the parameters in the synth basis, `labels` their `tex_labels()`; `uparams` and `medparams` are the reported
errors and medians, if there are any. -/
noncomputable def orbitLine (fuel : Nat) (params : Params ℝ) (labels : Dict Text Text) (uparams medparams : Option (Dict Key ℝ)) (n : Nat) (p : PName × Text) : Except PyErr (Option AnoLine) :=
  let key := Key.orb p.1 n
  let label := noDollar ((labels.get? key.render).getD key.render)
  match params.items.get? key with
  | none => .error .keyError
  | some q =>
    match uparams with
    | none => .ok (some ⟨label, .plain (pyRound q.value 2), p.2⟩)
    | some u =>
      match (match medparams with | none => some q.value | some m => m.get? key), u.get? key with
      | some val, some err => .ok ((anoNums fuel val err).map fun x => ⟨label, x, p.2⟩)
      | _, _ => .error .keyError

/-- The factor for a unit, /repo/radvel/plot/orbit_plots.py 386-391. -/
noncomputable def DerivedUnit.factor : DerivedUnit → ℝ
  | .jupiter => 0.00315
  | .sun => 0.000954265748
  | _ => 1

/-- A column of `post.derived`: the rows 0.159, 0.5 and 0.841. Models /repo/radvel/driver.py 669-674. -/
structure Quants where
  low : ℝ
  mid : ℝ
  high : ℝ

/-- The line of the mass, /repo/radvel/plot/orbit_plots.py 373-407, from the chain file of `derive`: `dp` is a `DerivedPlot` with the letters it uses for a posterior, which has no attribute `planet_letters`. A column
is among the labels of `dp` only if no sample is nan. -/
noncomputable def massLine (fuel : Nat) (N n : Nat) (derived : Dict Text Quants) (chains : Samples) : Except PyErr (List (Option AnoLine)) :=
  match derivedInit none N chains with
  | .error e => .error e
  | .ok _ =>
    let label := "mpsini".toList ++ digits n
    match derived.get? label with
    | none => .ok []
    | some q =>
      match (derivedPlot N chains).2.find? fun x => x.1 == label, (plotLetters none).get? n with
      | some x, some letter =>
        let val := q.mid * x.2.factor
        let low := q.low * x.2.factor
        let high := q.high * x.2.factor
        let err := roundSig (((val - low) + (high - val)) / 2) 2
        .ok [(anoNums fuel val err).map fun y => ⟨noDollar ((derivedTex label letter.toList).getD "None".toList), y, x.2.text⟩]
      | _, _ => .error .indexError

/-- The line of the mass if there is no chain file, /repo/radvel/plot/orbit_plots.py 408-424. -/
noncomputable def massFallback (fuel : Nat) (n : Nat) (derived : Dict Text Quants) (uparams : Option (Dict Key ℝ)) : List (Option AnoLine) :=
  let label := "mpsini".toList ++ digits n
  match uparams.bind fun u => u.get? (.other (String.ofList label)), derived.get? label with
  | some err, some q => [(anoNums fuel q.mid (roundSig err 2)).map fun y => ⟨label, y, []⟩]
  | _, _ => []

/-- The text of the panel of planet `n`, /repo/radvel/plot/orbit_plots.py 332-426: `derived` is the attribute of the posterior, `chains` the file named in the section `derive` of the status file, if there are any. -/
noncomputable def phaseText (fuel : Nat) (params : Params ℝ) (uparams medparams : Option (Dict Key ℝ)) (derived : Option (Dict Text Quants)) (chains : Option Samples) (n : Nat) : Except PyErr (List (Option AnoLine)) :=
  match params.texLabels with
  | .error e => .error e
  | .ok labels =>
    match printParams.mapM (orbitLine fuel params labels uparams medparams n) with
    | .error e => .error e
    | .ok lines =>
      match derived, chains with
      | none, _ => .ok lines
      | some d, none => .ok (lines ++ massFallback fuel n d uparams)
      | some d, some s =>
        match massLine fuel params.numPlanets n d s with
        | .error e => .error e
        | .ok more => .ok (lines ++ more)

end Radvel
