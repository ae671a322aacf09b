import Verif.Model.Report
import Verif.Model.TexLabels
import Verif.Model.TrendPlot

/-!
# Corner and trend plots: `radvel/plot/mcmc_plots.py` 31-45, 122-163, 166-271

Drawing itself (`corner.corner`, `pl.savefig`, `pl.show`) is the argument `draw`, which may raise. `rcParams['font.size']`, which lives as long as the Python process, is the state.
-/

namespace Radvel

/-- `self.labels` of `CornerPlot`, /repo/radvel/plot/mcmc_plots.py 140: the keys of the dictionary whose flag is true, in the order of the dictionary. -/
def cornerLabels {α : Type} (p : Params α) : List Key := (p.items.filter fun x => decide (x.2.vary = .yes)).map Prod.fst

/-- `post.params.tex_labels()`, /repo/radvel/model.py 131-163: for all keys of the dictionary. -/
def Params.texLabels {α : Type} (p : Params α) : Except PyErr (Dict Text Text) :=
  Radvel.texLabels (p.planetParameters.map PName.chars) p.letters (p.items.keys.map Key.render)

/-- `post.params.tex_labels().get(l, l)`, /repo/radvel/plot/mcmc_plots.py 39, 141. -/
def Params.axisLabel {α : Type} (p : Params α) (k : Key) : Except PyErr (Text × Text) := do
  let d ← p.texLabels
  return (k.render, (d.get? k.render).getD k.render)

/-- `CornerPlot.__init__`, /repo/radvel/plot/mcmc_plots.py 134-141: the columns to show and their labels. -/
def cornerInit {α : Type} (p : Params α) : Except PyErr (List (Text × Text)) := (cornerLabels p).mapM p.axisLabel

/-- `TrendPlot.__init__`, /repo/radvel/plot/mcmc_plots.py 31-40: the columns in the order of their names, `sorted` being any sorting function `sort`. -/
def trendInit {α : Type} (sort : List Key → List Key) (p : Params α) : Except PyErr (List (Text × Text)) := (sort (cornerLabels p)).mapM p.axisLabel

/-- One column of `self.chains[self.labels]`, /repo/radvel/plot/mcmc_plots.py 152. -/
def pickColumn (s : Samples) (x : Text × Text) : Except PyErr (Text × List (Option ℝ)) :=
  match s.get? x.1 with
  | some c => .ok (x.2, c)
  | none => .error .keyError

/-- What `corner.corner` is called with: the axes, each with its label and its samples. Models /repo/radvel/plot/mcmc_plots.py 151-155, 242-246. -/
abbrev CornerFig := List (Text × List (Option ℝ))

/-- The body of `plot` in `CornerPlot` and `DerivedPlot`, /repo/radvel/plot/mcmc_plots.py 143-163, 229-254, for columns with labels: `font` is `rcParams['font.size']` before. Returns the font size afterwards, and the
figure. An exception leaves the method before line 163 (256). -/
def cornerDraw (draw : Nat → CornerFig → Except PyErr Unit) (s : Samples) (axes : List (Text × Text)) (font : Nat) : Nat × Except PyErr CornerFig :=
  match axes.mapM (pickColumn s) with
  | .error e => (12, .error e)
  | .ok fig =>
    match draw 12 fig with
    | .error e => (12, .error e)
    | .ok _ => (font, .ok fig)

/-- `CornerPlot(post, chains).plot()`, /repo/radvel/plot/mcmc_plots.py 134-163. -/
def cornerPlot {α : Type} (draw : Nat → CornerFig → Except PyErr Unit) (p : Params α) (s : Samples) (font : Nat) : Nat × Except PyErr CornerFig :=
  match cornerInit p with
  | .error e => (font, .error e)
  | .ok axes => cornerDraw draw s axes font

/-- Python's `s.count(sub)` for a nonempty `sub`: occurrences from left to right that do not overlap; `n` characters remain to be skipped. Used for /repo/radvel/plot/mcmc_plots.py 266-270. -/
def countFrom (sub : Text) : Nat → Text → Nat
  | _, [] => 0
  | n + 1, _ :: t => countFrom sub n t
  | 0, c :: t => if sub.isPrefixOf (c :: t) then 1 + countFrom sub (sub.length - 1) t else countFrom sub 0 t

/-- `texlabel`, /repo/radvel/plot/mcmc_plots.py 257-271. `None` if no test applies: it would be written `None` on the axis. -/
def derivedTex (key letter : Text) : Option Text :=
  if countFrom "mpsini".toList 0 key = 1 then some ("$M_".toList ++ letter ++ "\\sin i$".toList)
  else if countFrom "rhop".toList 0 key = 1 then some ("$\\rho_".toList ++ letter ++ "$".toList)
  else if countFrom "a".toList 0 key = 1 then some ("$a_".toList ++ letter ++ "$".toList)
  else none

/-- The letters that `DerivedPlot` uses if the setup file defines none, /repo/radvel/plot/mcmc_plots.py 187. -/
def defaultLetters : Dict Nat String := [(1, "b"), (2, "c"), (3, "d"), (4, "e"), (5, "f"), (6, "g"), (7, "h"), (8, "i"), (9, "j"), (10, "k")]

/-- The letters of `DerivedPlot`, /repo/radvel/plot/mcmc_plots.py 184-187; `letters` is `P.planet_letters`, if the setup file defines it. -/
def plotLetters (letters : Option (Dict Nat String)) : Dict Nat String := letters.getD defaultLetters

/-- The text of an axis of the derived plot, /repo/radvel/plot/mcmc_plots.py 207, 237-240. -/
def derivedAxis (letter label : Text) (u : DerivedUnit) : Text := (derivedTex label letter).getD "None".toList ++ " [".toList ++ u.text ++ "]".toList

/-- One planet of the loop of `DerivedPlot.__init__`, /repo/radvel/plot/mcmc_plots.py 193-227: the letter is looked up before the columns. -/
noncomputable def derivedPlanet (letters : Option (Dict Nat String)) (acc : Samples × List (Text × Text)) (n : Nat) : Except PyErr (Samples × List (Text × Text)) :=
  match (plotLetters letters).get? n with
  | none => .error .keyError
  | some l =>
    let r := derivedLoop (derivedKeys.map fun k => (n, k)) acc.1
    .ok (r.1, acc.2 ++ r.2.map fun x => (x.1, derivedAxis l.toList x.1 x.2))

/-- `DerivedPlot.__init__`, /repo/radvel/plot/mcmc_plots.py 179-227, with letters: the samples afterwards, and the columns with their labels. -/
noncomputable def derivedInit (letters : Option (Dict Nat String)) (nplanets : Nat) (s : Samples) : Except PyErr (Samples × List (Text × Text)) :=
  ((List.range nplanets).map (· + 1)).foldlM (derivedPlanet letters) (s, [])

/-- `DerivedPlot(chains, P).plot()`, /repo/radvel/plot/mcmc_plots.py 179-254. -/
noncomputable def derivedFigure (draw : Nat → CornerFig → Except PyErr Unit) (letters : Option (Dict Nat String)) (nplanets : Nat) (s : Samples) (font : Nat) : Nat × Except PyErr CornerFig :=
  match derivedInit letters nplanets s with
  | .error e => (font, .error e)
  | .ok r => cornerDraw draw r.1 r.2 font

end Radvel
