import Verif.Model.Basis

/-!
# Arrays of times: `kepler`, `rv_drive` and `_standard_rv_calc`

What the calls return for one-dimensional arrays of any length, of doubles or of integers. The values themselves are those of `Verif/Model/Kepler.lean`.
-/

namespace Radvel

/-- What a call returns: a number or an array; `none` is nan or inf. Models /repo/radvel/kepler.py 107-110. -/
inductive Ret
  | scalar (v : Option ℝ)
  | array (l : List (Option ℝ))

/-- An operation of NumPy that acts on every entry, as in /repo/radvel/orbit.py 90-92 and /repo/radvel/kepler.py 57, 61. -/
def Ret.map (f : Option ℝ → Option ℝ) : Ret → Ret
  | .scalar v => .scalar (f v)
  | .array l => .array (l.map f)

/-- An array of times, with its dtype: `float64` or not. Models the argument `t` of /repo/radvel/kepler.py 20. -/
structure Times where
  vals : List ℝ
  float : Bool

/-- `kepler(Marr, eccarr)` with 107-110 of /repo/radvel/kepler.py; `none`: the loop has not ended within `fuel` turns. -/
noncomputable def keplerRet (fuel : Nat) (xs : List (ℝ × ℝ)) : Option (Except PyErr Ret) :=
  (npKepler fuel xs).map fun l =>
    if l.length > 1 then .ok (.array l)
    else
      match l with
      | [] => .error .indexError
      | x :: _ => .ok (.scalar x)

/-- `rv_drive(t, orbel)`, /repo/radvel/kepler.py 35-63; `cext`: whether the C extension is there. It takes arrays of `float64` only (/repo/src/_kepler.pyx 38) and raises `ValueError` for others, which line 54 does not catch.
Simplification: the end of the process in /repo/src/kepler.c is nan here. -/
noncomputable def rvDriveTimes (cext : Bool) (fuel : Nat) (T : Times) (o : Synth) : Option (Except PyErr Ret) :=
  if o.e = 0 then some (.ok (.array (T.vals.map fun t => some (rvCircular t o.per o.tp o.w o.k))))
  else
    let per := if o.per < 0 then 1e-4 else o.per
    let e := if o.e < 0 then 0 else o.e
    let e := if e > 0.99 then 0.99 else e
    if cext then
      if T.float then some (.ok (.array (T.vals.map fun t => (cSolve (meanAnomaly t o.tp per) e).map (rvC e o.w o.k))))
      else some (.error .valueError)
    else (keplerRet fuel (T.vals.map fun t => (meanAnomaly t o.tp per, e))).map fun r => r.map (Ret.map (Option.map (rvNumpy e o.w o.k)))

/-- `vel += x` for an array of `float64`: a number is added to every entry, an array of the same length entry by entry. Models /repo/radvel/model.py 343. Simplification: arrays of one entry are not repeated. -/
def addInto (vel : List (Option ℝ)) : Ret → Except PyErr (List (Option ℝ))
  | .scalar v => .ok (vel.map fun x => addNan x v)
  | .array l => if l.length = vel.length then .ok (List.zipWith addNan vel l) else .error .valueError

/-- The loop over planets, /repo/radvel/model.py 322-344, for the orbits `os`. -/
noncomputable def velTimes (cext : Bool) (fuel : Nat) (T : Times) (os : List Synth) : Option (Except PyErr (List (Option ℝ))) :=
  os.foldl (fun acc o => acc.bind fun a =>
    match a with
    | .error e => some (.error e)
    | .ok vel => (rvDriveTimes cext fuel T o).map fun r => r.bind (addInto vel)) (some (.ok (T.vals.map fun _ => some 0)))

end Radvel
