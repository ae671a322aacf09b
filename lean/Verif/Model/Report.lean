import Verif.Model.Status
import Verif.Model.TexLabels
import Verif.Model.Numbers
import Verif.Model.Basis
import Mathlib.Data.List.Sort

/-!
# `radvel/report.py` 58-90, 186-447, `radvel/plot/mcmc_plots.py` 179-228: which numbers go into which row of the report's tables

Names are texts. A row is kept as the name of the parameter whose numbers it shows (column of the samples, entry of `maxparams` and LaTeX label all have the same name) and its unit; the formatting of the
numbers is the subject of C53, C54 and C91. Left out: the templates, titles, and `tab_crit`.
-/

namespace Radvel

/-- `str(n)`. Used for /repo/radvel/report.py 249. -/
def digits (n : Nat) : Text := Nat.toDigits 10 n

/-- Words of a text, `str.split()`; `cur` is the word being read. Used for /repo/radvel/report.py 248. -/
def splitWordsAux (cur : Text) : Text → List Text
  | [] => if cur = [] then [] else [cur]
  | c :: t => if isSpace c then (if cur = [] then splitWordsAux [] t else cur :: splitWordsAux [] t) else splitWordsAux (cur ++ [c]) t

/-- `str.split()`. Used for /repo/radvel/report.py 248. -/
def splitWords (t : Text) : List Text := splitWordsAux [] t

/-- `' '.join(words)`. Used for /repo/radvel/report.py 365, 422. -/
def joinWords : List Text → Text
  | [] => []
  | [w] => w
  | w :: ws => w ++ ' ' :: joinWords ws

/-- `text.replace(s, '')` for a text `s` that is not empty; `skip` counts the characters of an occurrence still to be dropped. Used for /repo/radvel/report.py 258. -/
def removeAux (s : Text) : Nat → Text → Text
  | _, [] => []
  | skip + 1, _ :: t => removeAux s skip t
  | 0, c :: t => if s.isPrefixOf (c :: t) then removeAux s (s.length - 1) t else c :: removeAux s 0 t

/-- `text.replace(s, '')`. Used for /repo/radvel/report.py 258. -/
def removeAll (s t : Text) : Text := removeAux s 0 t

/-- `units`, /repo/radvel/report.py 15-37. -/
def texUnits : Dict Text Text :=
  [("per", "days"), ("tp", "JD"), ("tc", "JD"), ("e", ""), ("w", "radians"), ("k", "m s$^{-1}$"), ("logk", "$\\ln{(\\rm m\\ s^{-1})}$"), ("secosw", ""), ("sesinw", ""), ("gamma", "m s$-1$"), ("jitter", "m s$-1$"),
    ("logjit", "$\\ln{(\\rm m\\ s^{-1})}$"), ("jit", "$\\rm m\\ s^{-1}$"), ("dvdt", "m s$^{-1}$ d$^{-1}$"), ("curv", "m s$^{-1}$ d$^{-2}$"), ("gp_amp", "m s$-1$"), ("gp_explength", "days"), ("gp_per", "days"),
    ("gp_perlength", "")].map fun x => (x.1.toList, x.2.toList)

/-- What the rows are made from: the columns of the samples (and of their quantiles), the keys of `post.maxparams` and of `latex_dict`. Models /repo/radvel/report.py 196-229. -/
structure ReportNames where
  columns : List Text
  maxparams : List Text
  labels : List Text

/-- One row of a table: the parameter whose numbers are shown, and the unit. Models /repo/radvel/report.py 228. -/
structure TexRow where
  source : Text
  unit : Text
deriving DecidableEq, Repr

/-- The first lines of `_row`, /repo/radvel/report.py 200-201: the last character is dropped if there is no such column. -/
def rowName (r : ReportNames) (param : Text) : Text := if param ∈ r.columns then param else param.dropLast

/-- `_row`, /repo/radvel/report.py 196-229: a missing column, maximum or label raises `KeyError`. -/
def texRow (r : ReportNames) (param unit : Text) : Except PyErr TexRow :=
  let p := rowName r param
  if p ∈ r.columns ∧ p ∈ r.maxparams ∧ p ∈ r.labels then .ok { source := p, unit := unit } else .error .keyError

/-- `d.get(k, '')`. Used for /repo/radvel/report.py 252, 258, 264. -/
def unitGet (units : Dict Text Text) (k : Text) : Text := (units.get? k).getD []

/-- The search through the suffixes, /repo/radvel/report.py 255-259. -/
def suffixUnit (units : Dict Text Text) (suffixes : List Text) (p : Text) : Text :=
  match suffixes.find? fun s => isInfix s p with
  | some s => unitGet units (removeAll s p)
  | none => []

/-- The unit of a row, /repo/radvel/report.py 251-264. -/
def rowUnit (units : Dict Text Text) (suffixes : List Text) (p par : Text) : Text :=
  let unit := unitGet units p
  let unit := if unit = [] ∧ units.has par = false then suffixUnit units suffixes p else unit
  if unit = [] then unitGet units par else unit

/-- One turn of the inner loop, /repo/radvel/report.py 248-271: after `KeyError` there is no row. -/
def dataRow (units : Dict Text Text) (suffixes : List Text) (r : ReportNames) (n : Nat) (p : Text) : Option TexRow :=
  match texRow r (p ++ digits n) (rowUnit units suffixes p (p ++ digits n)) with
  | .ok row => some row
  | .error _ => none

/-- What a loop over `likelihood.suffixes` runs over, /repo/radvel/likelihood.py 253 and 265: with one likelihood it is not an array of names but the name itself, so the loop runs over its characters. -/
def suffixList : List Text → List Text
  | [s] => s.map fun c => [c]
  | l => l

/-- `_data`, /repo/radvel/report.py 231-273; `nloop - 1` planets. The suffixes of the instruments get an underscore in front (240). -/
def dataRows (units : Dict Text Text) (insts : List Text) (r : ReportNames) (basis : Text) (planets : Nat) : List TexRow :=
  (List.range planets).flatMap fun i => (splitWords basis).filterMap (dataRow units ((suffixList insts).map fun s => '_' :: s) r (i + 1))

/-- `print_basis`, /repo/radvel/report.py 14. -/
def printBasis : Text := "per tc tp e w k".toList

/-- `order`, /repo/radvel/report.py 350. -/
def paramOrder : List Text := ["gamma".toList, "dvdt".toList, "curv".toList, "jit".toList]

/-- One turn of the loop over `order`, /repo/radvel/report.py 351-358. -/
def orderGroup (extra : List Text) (o : Text) : List Text :=
  let op := extra.filter fun p => isInfix o p
  let op := if op = [] then [o] else op
  (op.insertionSort (· ≤ ·)).reverse

/-- `ep`, /repo/radvel/report.py 348-365: `extra` is `likelihood.extra_params` (a list made from a set, in any order), `names` is `likelihood.vector.names`. -/
def extraWords (extra names : List Text) : List Text := paramOrder.flatMap (orderGroup extra) ++ names.filter fun p => "gp_".toList.isPrefixOf p

/-- The three lists of rows of `tab_params`. Models /repo/radvel/report.py 368-370. -/
structure ParamsTable where
  fitting : List TexRow
  orbital : List TexRow
  other : List TexRow
deriving DecidableEq, Repr

/-- `tab_params`, /repo/radvel/report.py 342-380; `basisName` is `self.fitting_basis`. -/
def tabParams (units : Dict Text Text) (insts extra names : List Text) (r : ReportNames) (basisName : Text) (nplanets : Nat) : ParamsTable :=
  { fitting := dataRows units insts r basisName nplanets
    orbital := dataRows units insts r printBasis nplanets
    other := dataRows units insts r (joinWords (extraWords extra names)) 1 }

/-- The conversion of the parameters in `RadvelReport.__init__`, /repo/radvel/report.py 67-70: to the synth basis and from there to the basis of the report, with the default options. -/
noncomputable def reportConvert (dflt : ℝ) (p : Params ℝ) : Except PyErr (Params ℝ) := do
  let q ← toSynth dflt p.basis true p
  fromSynth dflt .perTcTpEWK true q

/-- The keys of `post.maxparams`, /repo/radvel/driver.py 282-288: those of the parameters in the synth basis. -/
noncomputable def maxKeys (dflt : ℝ) (p : Params ℝ) : Except PyErr (List Text) := do
  let q ← toSynth dflt p.basis true p
  return q.items.keys.map Key.render

/-- `self.fitting_basis` of a `TexTable`, /repo/radvel/report.py 190: the name of the basis of the (converted) parameters. -/
def tableBasis (p : Params ℝ) : Text := joinWords (p.basis.words.map PName.chars)

/-! ### derived parameters -/

/-- The names of derived parameters, /repo/radvel/plot/mcmc_plots.py 196-197. -/
def derivedKeys : List Text := ["mpsini".toList, "rhop".toList, "a".toList]

/-- A table of samples: the columns with their values; `none` is nan. Models /repo/radvel/plot/mcmc_plots.py 181, /repo/radvel/report.py 420. -/
abbrev Samples := Dict Text (List (Option ℝ))

/-- Whether a label is shown, /repo/radvel/plot/mcmc_plots.py 199-205: it must be a column without nan. -/
def shown (s : Samples) (label : Text) : Bool :=
  match s.get? label with
  | none => false
  | some col => col.all Option.isSome

/-- The units of derived parameters, /repo/radvel/plot/mcmc_plots.py 210-223. -/
inductive DerivedUnit
  | earth
  | jupiter
  | sun
  | density
  | au
deriving DecidableEq, Repr

/-- How the unit is written, /repo/radvel/plot/mcmc_plots.py 211-223. -/
def DerivedUnit.text : DerivedUnit → Text
  | .earth => "M$_{\\oplus}$".toList
  | .jupiter => "M$_{\\rm Jup}$".toList
  | .sun => "M$_{\\odot}$".toList
  | .density => " g cm$^{-3}$".toList
  | .au => " AU".toList

/-- `np.median` of a column without nan. Used for /repo/radvel/plot/mcmc_plots.py 212-215. -/
noncomputable def colMedian (col : List (Option ℝ)) : ℝ := median (col.map fun x => x.getD 0)

/-- The unit of the masses and the factor they are multiplied with, /repo/radvel/plot/mcmc_plots.py 211-217. -/
noncomputable def massUnit (med : ℝ) : DerivedUnit × ℝ := if med > 100 then (.jupiter, 0.00315) else if med > 100 then (.sun, 0.000954265748) else (.earth, 1)

/-- The effect of one label on the samples and the unit of a mass, /repo/radvel/plot/mcmc_plots.py 196-227: masses are rescaled in place. -/
noncomputable def derivedStep (s : Samples) (n : Nat) (key : Text) : Samples × Option (Text × DerivedUnit) :=
  let label := key ++ digits n
  if shown s label then
    if key = "mpsini".toList then
      let col := (s.get? label).getD []
      let mu := massUnit (colMedian col)
      (s.set label (col.map fun x => x.map (· * mu.2)), some (label, mu.1))
    else (s, some (label, if key = "rhop".toList then .density else .au))
  else (s, none)

/-- The loops of `DerivedPlot.__init__`, /repo/radvel/plot/mcmc_plots.py 193-227, over a list of planets and keys: the samples afterwards and the labels with their units. -/
noncomputable def derivedLoop : List (Nat × Text) → Samples → Samples × List (Text × DerivedUnit)
  | [], s => (s, [])
  | (n, key) :: l, s =>
    let x := derivedStep s n key
    let y := derivedLoop l x.1
    (y.1, x.2.toList ++ y.2)

/-- `DerivedPlot.__init__`, /repo/radvel/plot/mcmc_plots.py 179-227. More planets than letters (10 by default) raise `KeyError`, which is left out. -/
noncomputable def derivedPlot (nplanets : Nat) (s : Samples) : Samples × List (Text × DerivedUnit) :=
  derivedLoop ((List.range nplanets).flatMap fun i => derivedKeys.map fun k => (i + 1, k)) s

/-- `set(l)` as a list in some order: every element once. `order` stands for the order in which Python happens to iterate. Used for /repo/radvel/report.py 422. -/
def setOf (order : List Text → List Text) (l : List Text) : List Text := order (l.foldr (fun a acc => if a ∈ acc then acc else a :: acc) [])

/-- `derived_basis`, /repo/radvel/report.py 422: the labels without their last character, each once. -/
def derivedBasis (order : List Text → List Text) (labels : List Text) : Text := joinWords (setOf order (labels.map List.dropLast))

/-- `tab_derived`, /repo/radvel/report.py 410-446, for a report with derived parameters: the rows, for the labels and units of `DerivedPlot`. The samples' columns do not change; labels, units and maxima get entries for
the derived parameters. -/
def tabDerived (order : List Text → List Text) (units : Dict Text Text) (insts : List Text) (r : ReportNames) (labels : List (Text × DerivedUnit)) (nplanets : Nat) : List TexRow :=
  let names := labels.map Prod.fst
  dataRows (units.update (labels.map fun x => (x.1, x.2.text))) insts { r with maxparams := r.maxparams ++ names, labels := r.labels ++ names } (derivedBasis order names) nplanets

/-! ### the table of velocities -/

/-- `inst.replace('_', r'$_{\rm ')`. Used for /repo/radvel/report.py 328. -/
def subscripts : Text → Text
  | [] => []
  | c :: t => if c = '_' then "$_{\\rm ".toList ++ subscripts t else c :: subscripts t

/-- The name of an instrument as LaTeX, /repo/radvel/report.py 327-329. -/
def texInst (inst : Text) : Text := if '_' ∈ inst then subscripts inst ++ "}$".toList else inst

/-- One row of the table of velocities, /repo/radvel/report.py 323-331, before formatting. -/
structure RvRow where
  t : ℝ
  v : ℝ
  err : ℝ
  inst : Text

/-- `tab_rv`, /repo/radvel/report.py 301-340: the rows and the two numbers of the note, if there is one. Simplification: `max_lines` is a natural number. -/
def tabRv (data : List RvRow) (maxLines : Option Nat) : List RvRow × Option (Nat × Nat) :=
  match maxLines with
  | none => (data, none)
  | some m => (data.take m, some (m, data.length))

end Radvel
