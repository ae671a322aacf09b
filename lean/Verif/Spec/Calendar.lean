/-! # The calendar: the Julian day number of a date of the Gregorian calendar (C56) -/

namespace Radvel

/-- The Julian day number of the day `d` of month `m` of year `y` (Gregorian calendar), by the usual formula: years begin in March, so that the day added in leap years is the last of a year. -/
def julianDay (y m d : Int) : Int :=
  let a := (14 - m) / 12
  let y := y + 4800 - a
  let m := m + 12 * a - 3
  d + (153 * m + 2) / 5 + 365 * y + y / 4 - y / 100 + y / 400 - 32045

end Radvel
