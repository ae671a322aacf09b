import Verif.Model.Numbers

/-!
# Julian dates with rounded operations (`radvel/utils.py` 412-441)

Dates are integers as in `Verif.Model.Numbers`.
-/

namespace Radvel

/-- `date2jd(date)`, /repo/radvel/utils.py 412-424: both sums and the quotient are rounded. -/
noncomputable def date2jdRounded (rnd : ℝ → ℝ) (date : ℤ) : ℝ :=
  let td := date - datetime 2000 1 1 12 0 0
  rnd (rnd (2451545.0 + ((td / usDay : ℤ) : ℝ)) + rnd (((td % usDay / 1000000 : ℤ) : ℝ) / 86400.0))

/-- `timedelta(days=x)` in microseconds, used in /repo/radvel/utils.py 438, as CPython's C code has it: the whole days are exact, the rest is multiplied by the microseconds of a day, which rounds, and taken to the nearest integer. -/
noncomputable def timedeltaRounded (rnd : ℝ → ℝ) (x : ℝ) : ℤ :=
  truncInt x * usDay + roundEven (rnd ((x - truncInt x) * usDay))

/-- `jd2date(jd)`, /repo/radvel/utils.py 427-441: the difference is rounded. The limits of the type (years 1 to 9999) are not represented. -/
noncomputable def jd2dateRounded (rnd : ℝ → ℝ) (jd : ℝ) : ℤ :=
  let mjd := rnd (jd - 2400000.5)
  datetime 1858 11 17 0 0 0 + timedeltaRounded rnd mjd

end Radvel
