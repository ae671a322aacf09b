import Verif.Model.Postprocess
import Verif.Model.Report

/-!
# `TexTable._row`, `radvel/report.py` 196-229: the numbers of a row

Reals are exact. Which parameter a row is about is the subject of `Model/Report`; here are the numbers it shows.
-/

namespace Radvel

/-- What stands between the label and the unit of a row, /repo/radvel/report.py 219-228: either `\equiv` and a number, twice, or median, errors and maximum. Equal errors are written once, with `\pm`. -/
inductive RowNums
  | fixed (value : ℝ)
  | interval (med low high max : ℝ)

/-- The end of `_row`, /repo/radvel/report.py 214-228; `q50` is `self.quantiles[param][0.5]`. `none`: the loop of `sigfig` is still running after `fuel` turns. -/
noncomputable def rowShow (fuel : Nat) (med low high maxlike q50 : ℝ) : Option RowNums :=
  let low := strFloat (roundSig low 2)
  let high := strFloat (roundSig high 2)
  match sigfig fuel maxlike low (some high) with
  | none => none
  | some (max', _, _) =>
    match sigfig fuel med low (some high) with
    | none => none
    | some (med', errlow, errhigh) =>
      if min errlow errhigh ≤ 1e-12 then some (.fixed (pyRound q50 4)) else some (.interval med' errlow errhigh max')

/-- `_row`, /repo/radvel/report.py 203-228. `table` is the column that the quantiles were computed from when the report was made; `col` is the column of `report.chains` now (earlier rows may have changed it), and what
it holds afterwards is the first result. A nan makes `round_sig` raise. Simplification: columns of angles have no nan. -/
noncomputable def rowNumbers {n : Nat} (fuel : Nat) (mode : List ℝ → ℝ) (unit : Text) (table : Fin n → Option ℝ) (col : List ℝ) (maxlike : ℝ) : List ℝ × Except PyErr (Option RowNums) :=
  match quantile table 0.5, quantile table 0.159, quantile table 0.841 with
  | some q50, some q16, some q84 =>
    if unit = "radians".toList then
      match geterr mode col true with
      | (col', .error e) => (col', .error e)
      | (col', .ok (med, low, high)) => (col', .ok (rowShow fuel med low high maxlike q50))
    else (col, .ok (rowShow fuel q50 (q50 - q16) (q84 - q50) maxlike q50))
  | _, _, _ => (col, .error .valueError)

end Radvel
