import Verif.Py.Dict
import Mathlib.Data.List.Sort
import Mathlib.Data.List.Dedup
import Mathlib.Order.Basic
import Mathlib.Data.String.Basic

/-!
# `radvel/plot/__init__.py` 14-141: how the data of several telescopes are drawn

Keyword values are texts. Drawing itself is the list of calls of `pl.errorbar`. The points are of any type.
-/

namespace Radvel

/-- A dictionary of keywords for `pl.errorbar`. Models /repo/radvel/plot/__init__.py 64-80. -/
abbrev Fmt := Dict String String

/-- `telfmts_default`, /repo/radvel/plot/__init__.py 14-36. -/
def telfmtsDefault : Dict String Fmt :=
  let j : Fmt := [("color", "k"), ("fmt", "o"), ("label", "HIRES"), ("mew", "1")]
  let k : Fmt := [("color", "k"), ("fmt", "s"), ("mfc", "none"), ("label", "HIRES pre 2004"), ("mew", "1")]
  let a : Fmt := [("color", "g"), ("fmt", "d"), ("label", "APF")]
  let pfs : Fmt := [("color", "magenta"), ("fmt", "p"), ("label", "PFS")]
  let h : Fmt := [("color", "firebrick"), ("fmt", "s"), ("label", "HARPS")]
  let n : Fmt := [("color", "firebrick"), ("fmt", "^"), ("label", "HARPS-N")]
  let l : Fmt := [("color", "g"), ("fmt", "*"), ("label", "LICK")]
  [("j", j), ("k", k), ("a", a), ("pfs", pfs), ("h", h), ("harps-n", n), ("l", l), ("lick", l), ("hires_rj", j), ("hires", j), ("hires_rk", k), ("apf", a), ("harps", h), ("LICK", l), ("HIRES_RJ", j),
    ("HIRES", j), ("HIRES_RK", k), ("APF", a), ("HARPS", h), ("HARPS-N", n), ("PFS", pfs)]

/-- `default_colors`, /repo/radvel/plot/__init__.py 43. -/
def defaultColors : List String := ["orange", "purple", "magenta", "pink", "green", "grey", "red", "blue", "yellow"]

/-- `'\nRMS={:.2f} {:s}'` (83) of a formatted number. Used for /repo/radvel/plot/__init__.py 83. -/
def rmsText (rms : String) : String := "\nRMS=" ++ rms ++ " m s$^{\\mathregular{-1}}$"

/-- The keywords with which `telplot` calls `pl.errorbar`, /repo/radvel/plot/__init__.py 63-85; `rms`: the formatted number, if not zero. -/
def telplotKw (tel : String) (telfmt : Fmt) (rms : Option String) : Fmt :=
  let kw : Fmt := [("fmt", "o"), ("capsize", "0"), ("mew", "0"), ("ecolor", "0.6"), ("lw", "1.0"), ("color", "orange")]
  let telfmt := if telfmt.isEmpty then (telfmtsDefault.get? tel).getD telfmt else telfmt
  let kw := kw.update telfmt
  let kw := if kw.has "label" then kw else
    kw.set "label" (match telfmtsDefault.get? tel with
      | some f => (f.get? "label").getD tel
      | none => tel)
  match rms with
  | none => kw
  | some r => kw.set "label" ((kw.get? "label").getD "" ++ rmsText r)

/-- One call of `pl.errorbar`. Models /repo/radvel/plot/__init__.py 85. -/
structure Drawn (α : Type) where
  tel : String
  pts : List α
  kw : Fmt
  deriving DecidableEq

/-- `np.unique(tel)`, /repo/radvel/plot/__init__.py 108. -/
def uniqueTels (tel : List String) : List String := (tel.dedup).insertionSort (· ≤ ·)

/-- The variables of the loop of `mtelplot`: the caller's `telfmts`, which is changed in place, `ci`, and what has been drawn. Models /repo/radvel/plot/__init__.py 106-134. -/
structure MTel (α : Type) where
  telfmts : Dict String Fmt
  ci : Nat
  drawn : List (Drawn α)
  deriving DecidableEq

/-- The format of one telescope, with `telfmts` and `ci` afterwards, /repo/radvel/plot/__init__.py 116-127. -/
def telFormat (telfmts : Dict String Fmt) (ci : Nat) (t : String) : Except PyErr (Fmt × Dict String Fmt × Nat) :=
  match telfmts.get? t with
  | some f =>
    if f.has "color" then .ok (f, telfmts, ci)
    else
      match defaultColors[ci]? with
      | none => .error .indexError
      | some c => .ok (f.set "color" c, telfmts.set t (f.set "color" c), ci + 1)
  | none =>
    if telfmtsDefault.has t then .ok ([], telfmts, ci)
    else
      match defaultColors[ci]? with
      | none => .error .indexError
      | some c => .ok ([("color", c)], telfmts, ci + 1)

/-- `rms_values[t]` or no number, /repo/radvel/plot/__init__.py 129-132. -/
def rmsOf (rms : Option (Dict String String)) (t : String) : Except PyErr (Option String) :=
  match rms with
  | none => .ok none
  | some d =>
    match d.get? t with
    | none => .error .keyError
    | some r => .ok (some r)

/-- One turn of the loop, /repo/radvel/plot/__init__.py 111-134. -/
def mtelStep {α : Type} (data : List (String × α)) (rms : Option (Dict String String)) (m : MTel α) (t : String) : Except PyErr (MTel α) :=
  match telFormat m.telfmts m.ci t with
  | .error e => .error e
  | .ok (f, telfmts, ci) =>
    match rmsOf rms t with
    | .error e => .error e
    | .ok r => .ok ⟨telfmts, ci, m.drawn ++ [⟨t, (data.filter (fun p => decide (p.1 = t))).map Prod.snd, telplotKw t f r⟩]⟩

/-- `mtelplot(x, y, e, tel, ax, telfmts=telfmts, rms_values=rms)`, /repo/radvel/plot/__init__.py 88-141: what is drawn, and the caller's `telfmts` afterwards. Simplifications: no two entries of `telfmts` are the same dictionary object, an RMS is not zero, and the formatters of the axes (136-141) are left out. -/
def mtelplot {α : Type} (data : List (String × α)) (telfmts : Dict String Fmt) (rms : Option (Dict String String)) : Except PyErr (MTel α) :=
  (uniqueTels (data.map Prod.fst)).foldlM (mtelStep data rms) ⟨telfmts, 0, []⟩

end Radvel
