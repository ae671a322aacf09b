import Verif.Model.GPPost

/-!
# Saving and loading posteriors: `radvel/posterior.py` 195-204, 221-234

Pickling keeps the identity of shared objects, so that dictionary and vector of posterior, likelihood and model are again one object each, and gives equal copies of everything except
`Parameters`, which has its own `__reduce__` (`Params.unpickle` of Model/Params). The files themselves are in Model/Pipeline.
-/

namespace Radvel

/-- The loop of `load`, /repo/radvel/posterior.py 230-232, over the items that are left, `kept` being those before them: deleting an item of an `OrderedDict` during the iteration makes the next step
of the iterator raise `RuntimeError`, unless it is the last item: then the iterator is already exhausted. -/
def dropNone {β : Type} (kept : Dict Key (Option β)) : Dict Key (Option β) → Except PyErr (Dict Key (Option β))
  | [] => .ok kept
  | (k, some v) :: t => dropNone (kept ++ [(k, some v)]) t
  | [(_, none)] => .ok kept
  | (_, none) :: _ :: _ => .error .runtimeError

/-- The entries that are `Parameter` objects. Models /repo/radvel/posterior.py 230-232. -/
def someEntries {β : Type} (d : Dict Key (Option β)) : Dict Key β := d.filterMap fun x => x.2.map fun v => (x.1, v)

/-- `load` for the shared state, /repo/radvel/posterior.py 221-234: all entries of the dictionary are `Parameter` objects here. `dflt` is the value of `Parameter()`. -/
def VState.load {α : Type} (dflt : α) (s : VState α) : Except PyErr (VState α) :=
  let p := s.params.unpickle dflt
  match dropNone [] (p.items.map fun x => (x.1, some x.2)) with
  | .error e => .error e
  | .ok d => .ok { s with params := { p with items := someEntries d } }

/-- `radvel.posterior.load` of what `post.writeto` has written, /repo/radvel/posterior.py 195-204, 221-234. -/
def PostState.load (dflt : ℝ) (p : PostState) : Except PyErr PostState :=
  match p.st.load dflt with
  | .error e => .error e
  | .ok st => .ok { p with st := st }

/-- The same for a posterior with GP likelihoods. Models /repo/radvel/posterior.py 221-234. -/
def GPPost.load (dflt : ℝ) (p : GPPost) : Except PyErr GPPost :=
  match p.st.load dflt with
  | .error e => .error e
  | .ok st => .ok { p with st := st }

end Radvel
