import Verif.Py.Dict
import Mathlib.Analysis.SpecialFunctions.Pow.Real
import Mathlib.Analysis.SpecialFunctions.Sqrt

/-!
# `radvel/utils.py` 481-640: masses, semi-major axis, density

Exact reals. Arrays are lists of rows of equal length; a scalar argument is a list of one. The physical constants come from astropy and are not in the repository: they are a parameter.
-/

namespace Radvel
open Real

/-- The values taken from `astropy.constants` and `astropy.units`: `c.G`, `c.M_sun`, `c.M_jup`, `u.M_earth`, `c.au`, `u.R_earth`, `u.R_jup` (SI). Used for /repo/radvel/utils.py 481-640. -/
structure Consts where
  G : ℝ
  Msun : ℝ
  Mjup : ℝ
  Mearth : ℝ
  au : ℝ
  Rearth : ℝ
  Rjup : ℝ

/-- `K_0`, /repo/radvel/utils.py 18. -/
noncomputable def K0 : ℝ := 28.4329

/-- `Msini_units.lower()`: one of the two accepted words or anything else. Models /repo/radvel/utils.py 504-509, 604-609. -/
inductive MassUnits | jupiter | earth | other
  deriving DecidableEq

/-- `(P * u.d).to(u.year).value`: the Julian year of 365.25 days. Used for /repo/radvel/utils.py 481-513, 575. -/
noncomputable def toYears (P : ℝ) : ℝ := P / 365.25

/-- `(P * u.d).to(u.second).value`. Used for /repo/radvel/utils.py 533, 572. -/
noncomputable def toSeconds (P : ℝ) : ℝ := P * 86400

/-- `semi_amplitude(Msini, P, Mtotal, e, Msini_units)`, /repo/radvel/utils.py 481-513. -/
noncomputable def semiAmplitude (c : Consts) (m P Mtotal e : ℝ) (units : MassUnits) : Except PyErr ℝ :=
  match units with
  | .jupiter => .ok (K0 * (1 - e ^ 2) ^ (-0.5 : ℝ) * m * toYears P ^ (-1.0 / 3.0 : ℝ) * Mtotal ^ (-2.0 / 3.0 : ℝ))
  | .earth => .ok (K0 * (1 - e ^ 2) ^ (-0.5 : ℝ) * (m * c.Mearth / c.Mjup) * toYears P ^ (-1.0 / 3.0 : ℝ) * Mtotal ^ (-2.0 / 3.0 : ℝ))
  | .other => .error .exception

/-- `semi_major_axis(P, Mtotal)`, /repo/radvel/utils.py 515-539. -/
noncomputable def semiMajorAxis (c : Consts) (P Mtotal : ℝ) : ℝ :=
  (toSeconds P ^ 2 * c.G * (Mtotal * c.Msun) / (4 * π ^ 2)) ^ (1 / 3 : ℝ) / c.au

/-- One row of the arguments of `Msini`: semi-amplitude, period in days, stellar mass in solar masses, eccentricity. Models /repo/radvel/utils.py 542-575. -/
structure Star where
  K : ℝ
  P : ℝ
  M : ℝ
  e : ℝ

/-- The first estimate, /repo/radvel/utils.py 575, in Jupiter masses. -/
noncomputable def lightMsini (c : Consts) (s : Star) : ℝ :=
  s.K / K0 * √(1.0 - s.e ^ (2.0 : ℝ)) * (s.M * c.Msun / c.Msun) ^ (2.0 / 3.0 : ℝ) * toYears s.P ^ (1 / 3.0 : ℝ)

/-- The test on one element, /repo/radvel/utils.py 578. -/
noncomputable def isHeavy (c : Consts) (s : Star) : Bool := decide (lightMsini c s * c.Mjup / c.Msun / (s.M * c.Msun / c.Msun) > 0.10)

/-- The coefficient `a`, /repo/radvel/utils.py 583. -/
noncomputable def heavyCoef (c : Consts) (s : Star) : ℝ :=
  s.K * (2 * π * c.G / toSeconds s.P) ^ (-1 / 3 : ℝ) * √(1 - s.e ^ 2)

/-- The function whose root is looked for, /repo/radvel/utils.py 592-596; a negative base gives nan (`none`). -/
noncomputable def heavyFunc (c : Consts) (s : Star) (x : ℝ) : Option ℝ :=
  if s.M * c.Msun + x < 0 then none else some (x - heavyCoef c s * (s.M * c.Msun + x) ^ (2 / 3 : ℝ))

/-- `Msini(K, P, Mstar, e, Msini_units)`, /repo/radvel/utils.py 542-611. `root f x0` is `scipy.optimize.root(f, x0).x[0]`, whose success the code does not check. -/
noncomputable def msini (root : (ℝ → Option ℝ) → ℝ → ℝ) (c : Consts) (rows : List Star) (units : MassUnits) : Except PyErr (List ℝ) :=
  let jup := if rows.any (isHeavy c) then rows.map (fun s => root (heavyFunc c s) c.Mjup / c.Mjup) else rows.map (lightMsini c)
  match units with
  | .jupiter => .ok jup
  | .earth => .ok (jup.map (fun m => m * c.Mjup / c.Mearth))
  | .other => .error .exception

/-- `density(mass, radius, MR_units)`, /repo/radvel/utils.py 614-640, in g/cm^3. -/
noncomputable def density (c : Consts) (mass radius : ℝ) (units : MassUnits) : Except PyErr ℝ :=
  let rho (umass uradius : ℝ) : ℝ := mass * umass / (4.0 / 3.0 * π * (radius * uradius) ^ 3) * 1000 / 100 ^ 3
  match units with
  | .earth => .ok (rho c.Mearth c.Rearth)
  | .jupiter => .ok (rho c.Mjup c.Rjup)
  | .other => .error .exception

end Radvel
