import Verif.Py.Dict

/-!
# `radvel/model.py` 38-250: `Parameter`, `Parameters`, `Vector`

Values live in an arbitrary type `α` (floats in the code): only bookkeeping happens here.
`None` values / NaN are just elements of `α`.
-/

namespace Radvel

/-- The words that occur in basis names, /repo/radvel/basis.py 10-19, and the thirteen names that
`Vector.init_index_dict` registers per planet, /repo/radvel/model.py 201-207. -/
inductive PName
  | per | logper | tc | tp | secosw | ecosw | e | se | sesinw | esinw | w | k | logk
  deriving DecidableEq, Repr

/-- The key prefixes tested in `Vector.init_index_dict`, /repo/radvel/model.py 197. -/
inductive InstKind
  | gamma | jit | logjit | gp
  deriving DecidableEq, Repr

/-- Dictionary keys. `orb p n` is `'{p}{n}'` (model.py 165-166); `inst g r` is any key that starts with
`gamma`, `jit`, `logjit` or `gp` (model.py 197); everything else is `other`.
Simplification: keys are structured instead of flat strings; `Key.render` gives the string and is proved
injective on the keys the code generates (`Verif/Props/Params.lean`). -/
inductive Key
  | orb (p : PName) (n : Nat)
  | dvdt
  | curv
  | inst (g : InstKind) (rest : String)
  | other (s : String)
  deriving DecidableEq, Repr

/-- Spelling of a basis word, /repo/radvel/basis.py 10-19. -/
def PName.chars : PName → List Char
  | .per => "per".toList | .logper => "logper".toList | .tc => "tc".toList | .tp => "tp".toList
  | .secosw => "secosw".toList | .ecosw => "ecosw".toList | .e => "e".toList | .se => "se".toList
  | .sesinw => "sesinw".toList | .esinw => "esinw".toList | .w => "w".toList | .k => "k".toList
  | .logk => "logk".toList

/-- Spelling of the instrument prefixes, /repo/radvel/model.py 197. -/
def InstKind.chars : InstKind → List Char
  | .gamma => "gamma".toList | .jit => "jit".toList | .logjit => "logjit".toList | .gp => "gp".toList

/-- The actual string of a key: `'{0}{1}'.format(parameter, num_planet)`, /repo/radvel/model.py 165-166, and
`'gamma'+suffix`, `'jit'+suffix`, /repo/radvel/likelihood.py 331-332. -/
def Key.render : Key → List Char
  | .orb p n => p.chars ++ Nat.toDigits 10 n
  | .dvdt => "dvdt".toList
  | .curv => "curv".toList
  | .inst g r => g.chars ++ r.toList
  | .other s => s.toList

/-- The ten valid basis names, /repo/radvel/basis.py 10-19. -/
inductive BasisName
  | perTpEWK | perTcSecoswSesinwLogk | perTcSecoswSesinwK | perTcEcoswEsinwK | perTcEWK | perTcTpEWK
  | logperTcSecoswSesinwK | logperTcSecoswSesinwLogk | perTcSeWK | logperTpEWLogk
  deriving DecidableEq, Repr

/-- `name.split()`, /repo/radvel/basis.py 10-19 and 101. -/
def BasisName.words : BasisName → List PName
  | .perTpEWK => [.per, .tp, .e, .w, .k]
  | .perTcSecoswSesinwLogk => [.per, .tc, .secosw, .sesinw, .logk]
  | .perTcSecoswSesinwK => [.per, .tc, .secosw, .sesinw, .k]
  | .perTcEcoswEsinwK => [.per, .tc, .ecosw, .esinw, .k]
  | .perTcEWK => [.per, .tc, .e, .w, .k]
  | .perTcTpEWK => [.per, .tc, .tp, .e, .w, .k]
  | .logperTcSecoswSesinwK => [.logper, .tc, .secosw, .sesinw, .k]
  | .logperTcSecoswSesinwLogk => [.logper, .tc, .secosw, .sesinw, .logk]
  | .perTcSeWK => [.per, .tc, .se, .w, .k]
  | .logperTpEWLogk => [.logper, .tp, .e, .w, .logk]

/-- The `vary` attribute: `True`, `False`, or the empty string that `Basis.to_synth` writes
(/repo/radvel/basis.py 265). -/
inductive Vary | yes | no | blank
  deriving DecidableEq, Repr

/-- `class Parameter`, /repo/radvel/model.py 38-53. -/
structure Parameter (α : Type) where
  value : α
  vary : Vary := .yes
  mcmcscale : Option α := none
  linear : Bool := false
  deriving DecidableEq, Repr

/-- `class Parameters(OrderedDict)`, /repo/radvel/model.py 72-121: the items plus the attributes.
`planetParameters` is the attribute of line 106. Simplification: `planet_letters` keys are integers by type
(the assertion of 113-117 always holds). -/
structure Params (α : Type) where
  numPlanets : Nat
  basis : BasisName
  planetParameters : List PName
  letters : Option (Dict Nat String)
  items : Dict Key (Parameter α)
  deriving DecidableEq, Repr

/-- The keys created by the double loop of `Parameters.__init__`, /repo/radvel/model.py 108-111, in order:
planets `1 .. num_planets`, for each the words of the basis. -/
def defaultKeys (N : Nat) (ws : List PName) : List Key :=
  (List.range N).flatMap (fun i => ws.map (fun p => Key.orb p (i + 1)))

/-- `Parameters.__init__`, /repo/radvel/model.py 101-121. `dflt` is the value of `Parameter()` (Python `None`). -/
def Params.init {α : Type} (dflt : α) (N : Nat) (b : BasisName) (letters : Option (Dict Nat String)) :
    Params α where
  numPlanets := N
  basis := b
  planetParameters := b.words
  letters := letters
  items := (defaultKeys N b.words).foldl (fun d k => d.set k { value := dflt }) []

/-- `params[key] = par` by the user, or `OrderedDict.__setitem__`. Used for /repo/radvel/model.py 72, 111. -/
def Params.setItem {α : Type} (p : Params α) (k : Key) (v : Parameter α) : Params α :=
  { p with items := p.items.set k v }

/-- `Parameters.__reduce__` followed by unpickling (also used by `copy.deepcopy`), /repo/radvel/model.py 123-129:
rebuild with `Parameters(num_planets, basis.name, planet_letters)` and set the pickled items in order. -/
def Params.unpickle {α : Type} (dflt : α) (p : Params α) : Params α :=
  let q := Params.init dflt p.numPlanets p.basis p.letters
  { q with items := q.items.update p.items }

/-- One row of the vector: columns 0-3 are value, vary, mcmcscale, linear, /repo/radvel/model.py 217-226. -/
structure Row (α : Type) where
  value : α
  vary : Bool
  scale : α
  linear : Bool
  deriving DecidableEq, Repr

/-- A row of `np.zeros`, /repo/radvel/model.py 217. -/
def Row.zero {α : Type} [Zero α] : Row α := { value := 0, vary := false, scale := 0, linear := false }

/-- `Vector` together with the (shared) parameter dictionary, /repo/radvel/model.py 183-191: the attributes
`params`, `indices`, `vector` (rows) and `names`. The model, the vector and all likelihoods hold the same
`params` and `vector` objects (likelihood.py 28-29), so one record models them all. -/
structure VState (α : Type) where
  params : Params α
  indices : Dict Key Nat
  rows : List (Row α)
  names : List Key
  deriving DecidableEq, Repr

/-- Position of each of the thirteen names inside a planet's block of five, i.e. the numbers
`-5 .. -1` plus five, /repo/radvel/model.py 201-207. -/
def PName.offset : PName → Nat
  | .per => 0 | .logper => 0
  | .tc => 1 | .tp => 1
  | .secosw => 2 | .ecosw => 2 | .e => 2 | .se => 2
  | .sesinw => 3 | .esinw => 3 | .w => 3
  | .k => 4 | .logk => 4

/-- The order in which one planet's names are registered, /repo/radvel/model.py 201-207. -/
def PName.registered : List PName :=
  [.per, .logper, .tc, .tp, .secosw, .ecosw, .e, .se, .sesinw, .esinw, .w, .k, .logk]

/-- First loop of `Vector.init_index_dict`, /repo/radvel/model.py 194-199: `n` counts the keys with an
instrument prefix met so far. -/
def instIndices (N : Nat) : List Key → Nat → Dict Key Nat → Dict Key Nat
  | [], _, d => d
  | .inst g r :: ks, n, d => instIndices N ks (n + 1) (d.set (.inst g r) (2 + n + 5 * N))
  | _ :: ks, n, d => instIndices N ks n d

/-- `indices.update({...})` for planet `i + 1`, /repo/radvel/model.py 201-207
(`-5 + 5*num_planet + offset = 5*i + offset`). -/
def planetIndices (i : Nat) (d : Dict Key Nat) : Dict Key Nat :=
  PName.registered.foldl (fun d p => d.set (.orb p (i + 1)) (5 * i + p.offset)) d

/-- `Vector.init_index_dict`, /repo/radvel/model.py 193-209. -/
def initIndexDict {α : Type} (p : Params α) : Dict Key Nat :=
  let d := instIndices p.numPlanets p.items.keys 0 []
  let d := (List.range p.numPlanets).foldl (fun d i => planetIndices i d) d
  (d.set .dvdt (5 * p.numPlanets)).set .curv (5 * p.numPlanets + 1)

/-- The number of rows allocated by `dict_to_vector`, /repo/radvel/model.py 212-217: the number of keys plus one for
each of `dvdt`, `curv` that is absent. -/
def vectorSize {α : Type} (d : Dict Key (Parameter α)) : Nat :=
  d.length + (if d.has .dvdt then 0 else 1) + (if d.has .curv then 0 else 1)

/-- The row written for one parameter, /repo/radvel/model.py 220-226. `vary = ''` cannot be stored in a float
array: `ValueError`. -/
def rowOf {α : Type} [Zero α] (q : Parameter α) : Except PyErr (Row α) :=
  match q.vary with
  | .yes => .ok { value := q.value, vary := true, scale := q.mcmcscale.getD 0, linear := q.linear }
  | .no => .ok { value := q.value, vary := false, scale := q.mcmcscale.getD 0, linear := q.linear }
  | .blank => .error .valueError

/-- Loop of `dict_to_vector`, /repo/radvel/model.py 218-228: keys without index are skipped (`KeyError` swallowed), an
index outside the array raises `IndexError`. -/
def fillRows {α : Type} [Zero α] (idx : Dict Key Nat) : Dict Key (Parameter α) → List (Row α) → Except PyErr (List (Row α))
  | [], rows => .ok rows
  | (k, q) :: t, rows =>
    match idx.get? k with
    | none => fillRows idx t rows
    | some i =>
      if i < rows.length then
        match rowOf q with
        | .ok r => fillRows idx t (rows.set i r)
        | .error e => .error e
      else .error .indexError

/-- `Vector.dict_to_vector`, /repo/radvel/model.py 211-229. On an exception `self.vector` keeps its old value. -/
def VState.dictToVector {α : Type} [Zero α] (s : VState α) : Except PyErr (VState α) :=
  match fillRows s.indices s.params.items (List.replicate (vectorSize s.params.items) Row.zero) with
  | .ok rows => .ok { s with rows := rows }
  | .error e => .error e

/-- Loop of `vector_names`, /repo/radvel/model.py 233-237; `0` entries are `none`. -/
def fillNames (idx : Dict Key Nat) : List Key → List (Option Key) → Except PyErr (List (Option Key))
  | [], ns => .ok ns
  | k :: t, ns =>
    match idx.get? k with
    | none => fillNames idx t ns
    | some i => if i < ns.length then fillNames idx t (ns.set i (some k)) else .error .indexError

/-- One turn of the loop over `['dvdt', 'curv']` in `vector_names`, /repo/radvel/model.py 238-242. -/
def nameExtra (idx : Dict Key Nat) (has : Bool) (k : Key) (ns : List (Option Key)) :
    Except PyErr (List (Option Key)) :=
  if has then .ok ns
  else
    match idx.get? k with
    | none => .error .keyError
    | some i =>
      match ns[i]? with
      | none => .error .indexError
      | some (some _) => .error .assertionError
      | some none => .ok (ns.set i (some k))

/-- `Vector.vector_names`, /repo/radvel/model.py 231-243: note the compaction on line 243, which drops unnamed rows. -/
def VState.vectorNames {α : Type} (s : VState α) : Except PyErr (VState α) :=
  match fillNames s.indices s.params.items.keys (List.replicate (s.params.items.length + 2) none) with
  | .error e => .error e
  | .ok ns =>
    match nameExtra s.indices (s.params.items.has .dvdt) .dvdt ns with
    | .error e => .error e
    | .ok ns =>
      match nameExtra s.indices (s.params.items.has .curv) .curv ns with
      | .error e => .error e
      | .ok ns => .ok { s with names := ns.filterMap id }

/-- `Vector.__init__`, /repo/radvel/model.py 185-191. -/
def VState.init {α : Type} [Zero α] (p : Params α) : Except PyErr (VState α) :=
  match VState.dictToVector { params := p, indices := initIndexDict p, rows := [], names := [] } with
  | .error e => .error e
  | .ok s => s.vectorNames

/-- Loop of `vector_to_dict`, /repo/radvel/model.py 245-250: only values are copied back. -/
def readValues {α : Type} (idx : Dict Key Nat) (rows : List (Row α)) :
    Dict Key (Parameter α) → Except PyErr (Dict Key (Parameter α))
  | [] => .ok []
  | (k, q) :: t =>
    match idx.get? k with
    | none =>
      match readValues idx rows t with
      | .ok t' => .ok ((k, q) :: t')
      | .error e => .error e
    | some i =>
      match rows[i]? with
      | none => .error .indexError
      | some r =>
        match readValues idx rows t with
        | .ok t' => .ok ((k, { q with value := r.value }) :: t')
        | .error e => .error e

/-- `Vector.vector_to_dict`, /repo/radvel/model.py 245-250. Simplification: the (unreachable for well-formed states)
`IndexError` path does not keep the values already copied. -/
def VState.vectorToDict {α : Type} (s : VState α) : Except PyErr (VState α) :=
  match readValues s.indices s.rows s.params.items with
  | .ok items => .ok { s with params := { s.params with items := items } }
  | .error e => .error e

end Radvel
