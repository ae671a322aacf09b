/-!
# Python primitives: exceptions as values and insertion-ordered dictionaries

These definitions model the Python runtime objects the radvel code uses
(`dict` / `collections.OrderedDict`), not a particular radvel function.
-/

namespace Radvel

/-- The exception classes that the modelled code can raise. -/
inductive PyErr
  | keyError | indexError | valueError | typeError | assertionError | attributeError
  | zeroDivisionError | fileExistsError | fileNotFoundError | runtimeError | unboundLocalError
  | importError | linAlgError | osError | noSectionError | noOptionError | notImplementedError | keyboardInterrupt
  | exception
  deriving DecidableEq, Repr

/-- An insertion-ordered dictionary (`dict`, `OrderedDict`): the list of items in iteration order. -/
abbrev Dict (κ ν : Type) := List (κ × ν)

namespace Dict
variable {κ ν : Type} [DecidableEq κ]

/-- `d.get(k)`; `none` is Python's missing key. -/
def get? : Dict κ ν → κ → Option ν
  | [], _ => none
  | (k', v) :: t, k => if k' = k then some v else get? t k

/-- `d[k] = v`: overwrite in place, or append when the key is new. -/
def set : Dict κ ν → κ → ν → Dict κ ν
  | [], k, v => [(k, v)]
  | (k', v') :: t, k, v => if k' = k then (k, v) :: t else (k', v') :: set t k v

/-- `d.pop(k, None)`: remove the item with key `k`, if any. -/
def erase (d : Dict κ ν) (k : κ) : Dict κ ν := d.filter (fun p => decide (p.1 ≠ k))

/-- `list(d.keys())`. -/
def keys (d : Dict κ ν) : List κ := d.map Prod.fst

/-- `k in d`. -/
def has (d : Dict κ ν) (k : κ) : Bool := (d.get? k).isSome

/-- `d[k]`, raising `KeyError`. -/
def get (d : Dict κ ν) (k : κ) : Except PyErr ν :=
  match d.get? k with
  | some v => .ok v
  | none => .error .keyError

/-- `del d[k]`, raising `KeyError`. -/
def del (d : Dict κ ν) (k : κ) : Except PyErr (Dict κ ν) :=
  if d.has k then .ok (d.erase k) else .error .keyError

/-- `d.update(e)`: set every item of `e`, in order. -/
def update (d e : Dict κ ν) : Dict κ ν := e.foldl (fun acc p => acc.set p.1 p.2) d

end Dict
end Radvel
