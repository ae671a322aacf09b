import Verif.Model.Params

/-!
# `radvel/likelihood.py` 25-50 and 143-180: construction and the free-parameter interface
-/

namespace Radvel

/-- One turn of the loops over `extra_params` / `decorr_params`, /repo/radvel/likelihood.py 35-46. The pair carries the
counter `n`. `zero` is the value of `Parameter(value=0.0)`. -/
def addExtra {α : Type} [Zero α] (acc : VState α × Nat) (key : Key) : VState α × Nat :=
  let s := acc.1
  let params := if s.params.items.has key then s.params else s.params.setItem key { value := 0 }
  if s.indices.has key then ({ s with params := params }, acc.2)
  else ({ s with params := params, indices := s.indices.set key acc.2 }, acc.2 + 1)

/-- `Likelihood.__init__`, /repo/radvel/likelihood.py 25-50 (the data arrays are modelled elsewhere). -/
def VState.addLikelihood {α : Type} [Zero α] (s : VState α) (extra decorr : List Key) : Except PyErr (VState α) :=
  let s1 := ((extra ++ decorr).foldl addExtra (s, s.rows.length)).1
  match s1.dictToVector with
  | .error e => .error e
  | .ok s2 => s2.vectorNames

/-- A likelihood or posterior object as far as the free-parameter interface is concerned: the shared state and the
cached attribute `self.vary_params` (`none` while the attribute does not exist),
/repo/radvel/likelihood.py 143-180. -/
structure LikeState (α : Type) where
  st : VState α
  cache : Option (List Nat)
  deriving Repr

/-- `np.where(vector[:,1] == True)[0]`, /repo/radvel/likelihood.py 168. -/
def freeRows {α : Type} (rows : List (Row α)) : List Nat :=
  (List.range rows.length).filter (fun i => (rows[i]?.map Row.vary).getD false)

/-- `list_vary_params`, /repo/radvel/likelihood.py 167-168. -/
def LikeState.listVaryParams {α : Type} (l : LikeState α) : LikeState α :=
  { l with cache := some (freeRows l.st.rows) }

/-- The writing loop of `set_vary_params`, /repo/radvel/likelihood.py 151-155: returns the rows (also after an exception) and
the exception, if any. -/
def writeVals {α : Type} : List Nat → List α → List (Row α) → List (Row α) × Option PyErr
  | [], [], rows => (rows, none)
  | [], _ :: _, rows => (rows, some .assertionError)
  | _ :: _, [], rows => (rows, some .indexError)
  | i :: is, x :: xs, rows =>
    match rows[i]? with
    | none => (rows, some .indexError)
    | some r => writeVals is xs (rows.set i { r with value := x })

/-- The cache refresh at the start of `set_vary_params`, /repo/radvel/likelihood.py 146-150: only when the attribute is
missing or its length differs from the array. -/
def LikeState.refreshFor {α : Type} (l : LikeState α) (n : Nat) : LikeState α :=
  match l.cache with
  | none => l.listVaryParams
  | some c => if c.length ≠ n then l.listVaryParams else l

/-- `set_vary_params`, /repo/radvel/likelihood.py 143-157. The new state is returned also when an exception is raised,
because the writes made before it persist. -/
def LikeState.setVaryParams {α : Type} (l : LikeState α) (xs : List α) (fast : Bool) :
    LikeState α × Option PyErr :=
  let l := l.refreshFor xs.length
  match writeVals (l.cache.getD []) xs l.st.rows with
  | (rows, some e) => ({ l with st := { l.st with rows := rows } }, some e)
  | (rows, none) =>
    let l := { l with st := { l.st with rows := rows } }
    if fast then (l, none)
    else
      match l.st.vectorToDict with
      | .ok st => ({ l with st := st }, none)
      | .error e => (l, some e)

/-- `vector[self.vary_params][:,0]`, /repo/radvel/likelihood.py 162: fancy indexing raises `IndexError` outside the array. -/
def readVals {α : Type} (rows : List (Row α)) : List Nat → Except PyErr (List α)
  | [] => .ok []
  | i :: is =>
    match rows[i]?, readVals rows is with
    | some r, .ok t => .ok (r.value :: t)
    | none, _ => .error .indexError
    | _, .error e => .error e

/-- `get_vary_params`, /repo/radvel/likelihood.py 160-165. -/
def LikeState.getVaryParams {α : Type} (l : LikeState α) : LikeState α × Except PyErr (List α) :=
  match l.cache with
  | some c => (l, readVals l.st.rows c)
  | none =>
    let l := l.listVaryParams
    (l, readVals l.st.rows (l.cache.getD []))

/-- `names[i]` for each `i`, /repo/radvel/likelihood.py 173-174 and 178-179. -/
def readNames (names : List Key) : List Nat → Except PyErr (List Key)
  | [] => .ok []
  | i :: is =>
    match names[i]?, readNames names is with
    | some r, .ok t => .ok (r :: t)
    | none, _ => .error .indexError
    | _, .error e => .error e

/-- `name_vary_params`, /repo/radvel/likelihood.py 170-180. -/
def LikeState.nameVaryParams {α : Type} (l : LikeState α) : LikeState α × Except PyErr (List Key) :=
  match l.cache with
  | some c => (l, readNames l.st.names c)
  | none =>
    let l := l.listVaryParams
    (l, readNames l.st.names (l.cache.getD []))

/-- The user (or `model_comp`) edits a vary flag directly in the vector:
`post.vector.vector[i][1] = b`, e.g. /repo/radvel/fitting.py 219 and tutorials. -/
def VState.setFlag {α : Type} (s : VState α) (i : Nat) (b : Bool) : VState α :=
  { s with rows := match s.rows[i]? with
      | none => s.rows
      | some r => s.rows.set i { r with vary := b } }

end Radvel
