import Verif.Model.Basis
import Mathlib.Analysis.SpecialFunctions.Exp

/-!
# `radvel/model.py` 297-319 and `radvel/utils.py` 643-668: models drawn from a chain; `radvel/utils.py` 80-90: `logjit` keys
-/

namespace Radvel

/-- A model object: vector and dictionary, and the attribute `params_order`, which exists only after `list_params` has been called. Models /repo/radvel/model.py 277-281, 308-319. -/
structure ModelObj where
  st : VState ℝ
  order : Option (List Key)

/-- `list_params`, /repo/radvel/model.py 313-319: the keys are remembered at the first call. -/
def ModelObj.listParams (m : ModelObj) : ModelObj × List Key :=
  match m.order with
  | some ks => (m, ks)
  | none => ({ m with order := some m.st.params.items.keys }, m.st.params.items.keys)

/-- `list_vary_params`, /repo/radvel/model.py 308-311: the empty string counts as false; a remembered key that has disappeared raises `KeyError`. -/
def ModelObj.listVaryParams (m : ModelObj) : ModelObj × Except PyErr (List Key) :=
  match m.listParams with
  | (m, ks) =>
    if ∀ k ∈ ks, m.st.params.items.has k then
      (m, .ok (ks.filter (fun k => decide ((m.st.params.items.get? k).map Parameter.vary = some .yes))))
    else (m, .error .keyError)

/-- The loop of `array_to_params`, /repo/radvel/model.py 303-304. -/
def setValues (ks : List Key) (vs : List ℝ) (p : Params ℝ) : Params ℝ :=
  (ks.zip vs).foldl (fun p x => p.setItem x.1 { value := x.2 }) p

/-- `array_to_params(param_values)`, /repo/radvel/model.py 297-306: `new_params` is the model's own dictionary. -/
def ModelObj.arrayToParams (m : ModelObj) (vs : List ℝ) : ModelObj × Except PyErr Unit :=
  match m.listVaryParams with
  | (m, .error e) => (m, .error e)
  | (m, .ok ks) =>
    if vs.length < ks.length then (m, .error .indexError)
    else ({ m with st := { m.st with params := setValues ks vs m.st.params } }, .ok ())

/-- A chain: for each row its index label and its column values. Models /repo/radvel/utils.py 643-661. -/
abbrev ChainTable := List (Nat × (Key → Option ℝ))

/-- `chain.loc[i, names]`: the row with label `i` (labels are distinct), `KeyError` for a missing label or column. Used for /repo/radvel/utils.py 664. -/
def chainLoc (chain : ChainTable) (i : Nat) (names : List Key) : Except PyErr (List ℝ) :=
  match chain.find? (fun r => decide (r.1 = i)) with
  | none => .error .keyError
  | some r => names.mapM (fun k => match r.2 k with | some v => .ok v | none => .error .keyError)

/-- `chain.iloc[draws].index`: `draws` are labels (`np.random.choice(chain.index, n)`) but are used as positions. Used for /repo/radvel/utils.py 661. -/
def chainIloc (chain : ChainTable) (draws : List Nat) : Except PyErr (List Nat) :=
  draws.mapM (fun j => match chain[j]? with | some r => .ok r.1 | none => .error .indexError)

/-- One turn of the loop of `draw_models_from_chain`, /repo/radvel/utils.py 663-666; `call` is `mod(t)`. -/
def drawStep (call : VState ℝ → Except PyErr (List (Option ℝ))) (chain : ChainTable) (acc : ModelObj × List (List (Option ℝ))) (i : Nat) :
    Except PyErr (ModelObj × List (List (Option ℝ))) :=
  match acc.1.listVaryParams with
  | (_, .error e) => .error e
  | (m, .ok names) =>
    match chainLoc chain i names with
    | .error e => .error e
    | .ok vs =>
      match m.arrayToParams vs with
      | (_, .error e) => .error e
      | (m, .ok ()) =>
        match call m.st with
        | .error e => .error e
        | .ok row => .ok (m, acc.2 ++ [row])

/-- `draw_models_from_chain(mod, chain, t, nsamples)`, /repo/radvel/utils.py 643-668, for given random `draws` (a list of `nsamples` index labels). Returns the model object
and the rows; on an exception the changes to the model are not tracked. -/
def drawModels (call : VState ℝ → Except PyErr (List (Option ℝ))) (m : ModelObj) (chain : ChainTable) (draws : List Nat) :
    Except PyErr (ModelObj × List (List (Option ℝ))) :=
  match chainIloc chain draws with
  | .error e => .error e
  | .ok labels => labels.foldlM (drawStep call chain) (m, [])

/-- `mod(t)` for a list of times. Models /repo/radvel/utils.py 666. -/
noncomputable def callOn (drive : Drive) (timeBase : ℝ) (ts : List ℝ) (s : VState ℝ) : Except PyErr (List (Option ℝ)) := ts.mapM (modelCall drive timeBase s none)

/-! ### `logjit` -/

/-- The loop of `initialize_posterior` over `params.keys()`, /repo/radvel/utils.py 80-90. `ks` are the keys still to come. Adding and deleting keys makes the next step of an
`OrderedDict` iterator raise `RuntimeError`, unless it has already passed its last key. Simplification: `logjit` occurs only at the start of a key. -/
noncomputable def convertLogjit : List Key → Dict Key (Parameter ℝ) → Except PyErr (Dict Key (Parameter ℝ))
  | [], d => .ok d
  | .inst .logjit r :: ks, d =>
    match d.get? (.inst .logjit r) with
    | none => .error .keyError
    | some q =>
      let d := (d.set (.inst .jit r) { value := Real.exp q.value, vary := q.vary }).erase (.inst .logjit r)
      match ks with
      | [] => .ok d
      | _ :: _ => .error .runtimeError
  | _ :: ks, d => convertLogjit ks d

end Radvel
