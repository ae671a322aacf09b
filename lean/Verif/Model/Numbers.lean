import Verif.Py.Dict
import Mathlib.Analysis.SpecialFunctions.Log.Base
import Mathlib.Analysis.SpecialFunctions.Trigonometric.Basic

/-!
# `radvel/utils.py` 146-219, 412-479: rounding, display of numbers, dates, percentiles

Numbers are exact reals: rounding of binary floating point is not modelled.
-/

namespace Radvel
open Real

/-! ### rounding -/

/-- Python's `round(x)`: the nearest integer, ties to even. Used for /repo/radvel/utils.py 190-191. -/
noncomputable def roundEven (x : ℝ) : ℤ :=
  if Int.fract x < 1 / 2 then ⌊x⌋ else if 1 / 2 < Int.fract x then ⌊x⌋ + 1 else if ⌊x⌋ % 2 = 0 then ⌊x⌋ else ⌊x⌋ + 1

/-- Python's `round(x, d)`. Used for /repo/radvel/utils.py 157, 181, 185, 193. -/
noncomputable def pyRound (x : ℝ) (d : ℤ) : ℝ := roundEven (x * 10 ^ d) / 10 ^ d

/-- `round_sig(x, sig)`, /repo/radvel/utils.py 146-157. -/
noncomputable def roundSig (x : ℝ) (sig : ℤ) : ℝ :=
  if x = 0 then 0 else pyRound x (sig - ⌊logb 10 |x|⌋ - 1)

/-- The decimal number that `str(x)` shows: digits `m` and exponent; `Decimal(str(x)).as_tuple().exponent` is `exp`. Used for /repo/radvel/utils.py 177-179. -/
structure Dec where
  m : ℤ
  exp : ℤ
  deriving DecidableEq

/-- The number. Used for /repo/radvel/utils.py 177-191. -/
noncomputable def Dec.val (d : Dec) : ℝ := d.m * 10 ^ d.exp

/-- `str(x)[-1] == '0'`. Only read for numbers shown with one decimal. Used for /repo/radvel/utils.py 188. -/
def Dec.lastZero (d : Dec) : Bool := decide (d.m % 10 = 0)

/-- `int(x)`: towards zero. Used for /repo/radvel/utils.py 189, 476-477. -/
noncomputable def truncInt (x : ℝ) : ℤ := if 0 ≤ x then ⌊x⌋ else ⌈x⌉

/-- `while tmpmed == 0: tmpmed = round(med, abs(ndec)+p); p += 1` for at most `fuel` turns, /repo/radvel/utils.py 184-186; `none`: still running. -/
noncomputable def sigfigLoop (med : ℝ) (nd : ℤ) : Nat → ℝ → Nat → Option ℝ
  | 0, tmp, _ => if tmp = 0 then none else some tmp
  | fuel + 1, tmp, p => if tmp = 0 then sigfigLoop med nd fuel (pyRound med (nd + p)) (p + 1) else some tmp

/-- `sigfig(med, errlow, errhigh)`, /repo/radvel/utils.py 160-195; the loop runs for at most `fuel` turns. -/
noncomputable def sigfig (fuel : Nat) (med : ℝ) (errlow : Dec) (errhigh : Option Dec) : Option (ℝ × ℝ × ℝ) :=
  let errhigh := errhigh.getD errlow
  let ndec := if |errhigh.exp| > |errlow.exp| then errhigh.exp else errlow.exp
  if ndec < -1 then
    let tmpmed := pyRound med |ndec|
    if med ≠ 0 then
      match sigfigLoop med |ndec| fuel tmpmed 0 with
      | none => none
      | some m => some (m, errlow.val, errhigh.val)
    else some (med, errlow.val, errhigh.val)
  else if (ndec = -1 ∧ errhigh.lastZero = true) ∧ (ndec = -1 ∧ errlow.lastZero = true) ∨ ndec = 0 then
    some ((truncInt (roundEven med) : ℝ), (truncInt (roundSig errlow.val 2) : ℝ), (truncInt (roundEven errhigh.val) : ℝ))
  else some (pyRound med |ndec|, errlow.val, errhigh.val)

/-! ### elapsed time -/

/-- The units of `time_print`. Models /repo/radvel/utils.py 198-219. -/
inductive TimeUnit | seconds | minutes | hours | days
  deriving DecidableEq, Repr

/-- `time_print(tdiff)`, /repo/radvel/utils.py 198-219. -/
noncomputable def timePrint (tdiff : ℝ) : ℝ × TimeUnit :=
  if tdiff > 60 then
    let tdiff := tdiff / 60
    if tdiff > 60 then
      let tdiff := tdiff / 60
      if tdiff > 24 then (tdiff / 24, .days) else (tdiff, .hours)
    else (tdiff, .minutes)
  else (tdiff, .seconds)

/-! ### dates -/

/- A `datetime.datetime` is an integer here: microseconds since the day before 0001-01-01 (proleptic Gregorian calendar). The limits of the type (years 1 to 9999) are not
represented. -/

/-- Microseconds of a day. Used for /repo/radvel/utils.py 412-441. -/
def usDay : ℤ := 86400 * 1000000

/-- Days before 1 January of year `y`: `_days_before_year` of Python's `datetime`. Used for /repo/radvel/utils.py 412-441. -/
def daysBeforeYear (y : ℤ) : ℤ := (y - 1) * 365 + (y - 1) / 4 - (y - 1) / 100 + (y - 1) / 400

/-- Leap years of the Gregorian calendar. Used for /repo/radvel/utils.py 412-441. -/
def isLeap (y : ℤ) : Bool := decide (y % 4 = 0) && (decide (y % 100 ≠ 0) || decide (y % 400 = 0))

/-- Days in a month. Used for /repo/radvel/utils.py 412-441. -/
def daysInMonth (y : ℤ) (m : Nat) : ℤ :=
  if m = 2 then (if isLeap y then 29 else 28) else if m = 4 ∨ m = 6 ∨ m = 9 ∨ m = 11 then 30 else 31

/-- Days of year `y` before month `m`. Used for /repo/radvel/utils.py 412-441. -/
def daysBeforeMonth (y : ℤ) (m : Nat) : ℤ := ((List.range (m - 1)).map (fun i => daysInMonth y (i + 1))).sum

/-- `datetime(y, m, d, h, mi, s)`. Used for /repo/radvel/utils.py 412-424. -/
def datetime (y : ℤ) (m : Nat) (d h mi s : ℤ) : ℤ :=
  (daysBeforeYear y + daysBeforeMonth y m + d) * usDay + (h * 3600 + mi * 60 + s) * 1000000

/-- `date2jd(date)`, /repo/radvel/utils.py 412-424: `days` and `seconds` of the difference; its microseconds are dropped. -/
noncomputable def date2jd (date : ℤ) : ℝ :=
  let td := date - datetime 2000 1 1 12 0 0
  2451545.0 + ((td / usDay : ℤ) : ℝ) + ((td % usDay / 1000000 : ℤ) : ℝ) / 86400.0

/-- `jd2date(jd)`, /repo/radvel/utils.py 427-441: `timedelta(days=..)` is rounded to the nearest microsecond. -/
noncomputable def jd2date (jd : ℝ) : ℤ :=
  let mjd := jd - 2400000.5
  datetime 1858 11 17 0 0 0 + roundEven (mjd * usDay)

/-! ### percentiles -/

/-- `np.median`. Used for /repo/radvel/utils.py 471-473. -/
noncomputable def median (s : List ℝ) : ℝ :=
  let s := s.mergeSort (fun a b => decide (a ≤ b))
  if s.length % 2 = 1 then s.getD (s.length / 2) 0 else (s.getD (s.length / 2 - 1) 0 + s.getD (s.length / 2) 0) / 2

/-- `s[i]`. Used for /repo/radvel/utils.py 476-477. -/
def pyIndex (s : List ℝ) (i : Nat) : Except PyErr ℝ :=
  match s[i]? with
  | some x => .ok x
  | none => .error .indexError

/-- The wrapping of an angular sample, /repo/radvel/utils.py 465-470, given the left edge `mode` of the fullest of 50 bins (`np.histogram`, `np.argmax`). The assignments
change the caller's array. -/
noncomputable def wrapAngles (mode : ℝ) (vec : List ℝ) : List ℝ :=
  let v1 := if mode > π / 2 then vec.map (fun x => if x < 0 then x + 2 * π else x) else vec
  if mode ≤ -(π / 2) then v1.map (fun x => if 0 ≤ x then x - 2 * π else x) else v1

/-- `geterr(vec, angular)`, /repo/radvel/utils.py 444-479; also returns what the caller's array holds afterwards. `mode` gives the left edge of the fullest histogram bin. -/
noncomputable def geterr (mode : List ℝ → ℝ) (vec : List ℝ) (angular : Bool) : List ℝ × Except PyErr (ℝ × ℝ × ℝ) :=
  let vec := if angular then wrapAngles (mode vec) vec else vec
  let med := median vec
  let s := vec.mergeSort (fun a b => decide (a ≤ b))
  (vec,
    match pyIndex s ⌊(0.159 : ℝ) * s.length⌋₊, pyIndex s ⌊(0.841 : ℝ) * s.length⌋₊ with
    | .ok lo, .ok hi => .ok (med, med - lo, hi - med)
    | .error e, _ => .error e
    | _, .error e => .error e)

end Radvel
