import Verif.Model.Status

/-!
Model of the small helpers of /repo/radvel/driver.py: reading options of the status (`RawConfigParser.get`, `getboolean`, `getint` of the standard library), `_pick_sampler`, and the parsing of
keyword strings `_cast_str_arg`, `_process_kwargs_str`.

`int` and `float` of a string are modelled from the language reference for ASCII texts (other decimal digits and the limit on the length of integers are left out); a float is kept as the exact decimal that
was written, rounding to double precision is left out.
-/

namespace Radvel

/-- `config.get(section, option)`. Used for /repo/radvel/driver.py 52, 189, 418, 479-482. -/
def getOption (c : Config) (s k : Text) : Except PyErr Text :=
  match c.get? s with
  | none => .error .noSectionError
  | some d =>
    match d.get? (lower k) with
    | none => .error .noOptionError
    | some v => .ok v

/-- `RawConfigParser.BOOLEAN_STATES`. Used for /repo/radvel/driver.py 50, 186, 416, 541-542. -/
def booleanStates : List (Text × Bool) :=
  [("1".toList, true), ("yes".toList, true), ("true".toList, true), ("on".toList, true), ("0".toList, false), ("no".toList, false), ("false".toList, false), ("off".toList, false)]

/-- `config.getboolean(section, option)`. Used for /repo/radvel/driver.py 50, 186, 416, 541-542. -/
def getBoolean (c : Config) (s k : Text) : Except PyErr Bool :=
  match getOption c s k with
  | .error e => .error e
  | .ok v =>
    match (booleanStates.find? fun b => b.1 = lower v).map Prod.snd with
    | none => .error .valueError
    | some b => .ok b

/-- `status.has_section(s) and status.getboolean(s, 'run')`, /repo/radvel/driver.py 541-542. -/
def hasRun (c : Config) (s : Text) : Except PyErr Bool := if c.has s then getBoolean c s "run".toList else .ok false

/-- `_pick_sampler`, /repo/radvel/driver.py 540-563. The last `else` of `auto` cannot be reached and is kept. -/
def pickSampler (request : Text) (c : Config) : Except PyErr Text := do
  let hasMcmc ← hasRun c "mcmc".toList
  let hasNs ← hasRun c "ns".toList
  if !(hasMcmc || hasNs) then .error .assertionError
  else if request = "auto".toList then
    if hasMcmc then .ok "mcmc".toList
    else if hasNs then .ok "ns".toList
    else .error .valueError
  else if request = "mcmc".toList then
    if !hasMcmc then .error .valueError else .ok "mcmc".toList
  else if request = "ns".toList then
    if !hasNs then .error .valueError else .ok "ns".toList
  else .error .valueError

/-- The value of a decimal digit. Used for /repo/radvel/driver.py 316. -/
def digitVal (c : Char) : Option Nat := if '0' ≤ c ∧ c ≤ '9' then some (c.toNat - 48) else none

/-- The digits of an integer literal, single underscores allowed between digits; `prev` says whether the last character was a digit. Used for /repo/radvel/driver.py 316. -/
def scanInt (acc : Nat) (prev : Bool) : Text → Option Nat
  | [] => if prev then some acc else none
  | c :: t =>
    if c = '_' then if prev then scanInt acc false t else none
    else
      match digitVal c with
      | some d => scanInt (10 * acc + d) true t
      | none => none

/-- `int(text)`: spaces around are dropped, then an optional sign and digits. Used for /repo/radvel/driver.py 316. -/
def pyInt (t : Text) : Option Int :=
  match strip t with
  | '-' :: r => (scanInt 0 false r).map fun n => -(n : Int)
  | '+' :: r => (scanInt 0 false r).map fun n => (n : Int)
  | r => (scanInt 0 false r).map fun n => (n : Int)

/-- The number written: a decimal `± m · 10^e`, an infinity, or nan. Used for /repo/radvel/driver.py 320. -/
inductive FloatText
  | dec (negative : Bool) (m : Nat) (e : Int)
  | inf (negative : Bool)
  | nan
deriving DecidableEq

/-- `float` accepts underscores between digits and ignores them; `prev` is the character before. Used for /repo/radvel/driver.py 320. -/
def dropUnderscores (prev : Option Char) : Text → Option Text
  | [] => if prev = some '_' then none else some []
  | c :: t =>
    if c = '_' then if (prev.bind digitVal).isSome then dropUnderscores (some c) t else none
    else if prev = some '_' ∧ (digitVal c).isSome = false then none
    else (dropUnderscores (some c) t).map fun r => c :: r

/-- The digits at the start of a text, and the rest. Used for /repo/radvel/driver.py 320. -/
def spanDigits (t : Text) : Text × Text := t.span fun c => (digitVal c).isSome

/-- The value of a text of digits. Used for /repo/radvel/driver.py 320. -/
def digitsValue (t : Text) : Nat := t.foldl (fun acc c => 10 * acc + (digitVal c).getD 0) 0

/-- The exponent: `e` or `E`, an optional sign, digits; nothing is zero. Used for /repo/radvel/driver.py 320. -/
def parseExponent : Text → Option Int
  | [] => some 0
  | c :: t =>
    if c = 'e' ∨ c = 'E' then
      match t with
      | '-' :: r => if r ≠ [] ∧ (spanDigits r).2 = [] then some (-(digitsValue r : Int)) else none
      | '+' :: r => if r ≠ [] ∧ (spanDigits r).2 = [] then some (digitsValue r : Int) else none
      | r => if r ≠ [] ∧ (spanDigits r).2 = [] then some (digitsValue r : Int) else none
    else none

/-- The part after the point, if there is a point, and the rest. Used for /repo/radvel/driver.py 320. -/
def fraction : Text → Text × Text
  | '.' :: r => spanDigits r
  | r => ([], r)

/-- A number without sign. Used for /repo/radvel/driver.py 320. -/
def parseUnsigned (negative : Bool) (t : Text) : Option FloatText :=
  if lower t = "inf".toList ∨ lower t = "infinity".toList then some (.inf negative)
  else if lower t = "nan".toList then some .nan
  else
    let whole := spanDigits t
    let frac := fraction whole.2
    if whole.1 = [] ∧ frac.1 = [] then none
    else (parseExponent frac.2).map fun e => .dec negative (digitsValue (whole.1 ++ frac.1)) (e - frac.1.length)

/-- `float(text)`. Used for /repo/radvel/driver.py 320. -/
def pyFloat (t : Text) : Option FloatText :=
  match dropUnderscores none (strip t) with
  | none => none
  | some ('-' :: r) => parseUnsigned true r
  | some ('+' :: r) => parseUnsigned false r
  | some r => parseUnsigned false r

/-- A keyword value. Models /repo/radvel/driver.py 314-329. -/
inductive KwVal
  | int (n : Int)
  | float (x : FloatText)
  | bool (b : Bool)
  | str (t : Text)
deriving DecidableEq

/-- `_cast_str_arg`, /repo/radvel/driver.py 314-329. -/
def castStrArg (arg : Text) : KwVal :=
  match pyInt arg with
  | some n => .int n
  | none =>
    match pyFloat arg with
    | some x => .float x
    | none => if lower arg = "true".toList then .bool true else if lower arg = "false".toList then .bool false else .str arg

/-- `text.split(sep)` for a separator of one character. Used for /repo/radvel/driver.py 336-338. -/
def splitChar (sep : Char) : Text → List Text
  | [] => [[]]
  | c :: t =>
    if c = sep then [] :: splitChar sep t
    else
      match splitChar sep t with
      | [] => [[c]]
      | h :: r => (c :: h) :: r

/-- One turn of the loop of `_process_kwargs_str`, /repo/radvel/driver.py 337-339. -/
def addPair (d : Dict Text KwVal) (pair : Text) : Except PyErr (Dict Text KwVal) :=
  match splitChar '=' pair with
  | [key, value] => .ok (Dict.set d key (castStrArg value))
  | _ => .error .valueError

/-- `_process_kwargs_str`, /repo/radvel/driver.py 331-340. -/
def processKwargs : Option Text → Except PyErr (Dict Text KwVal)
  | none => .ok []
  | some t => (splitChar ' ' t).foldlM addPair []

end Radvel
