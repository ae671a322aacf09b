import Verif.Model.Like
import Verif.Model.TexLabels

/-!
# `radvel/fitting.py` 49-333 and `radvel/driver.py` 398-459: model comparison

What is left out: the printed messages, the statistics RMS, log-likelihood, BIC and AICc (functions of the fitted vector and of the number of free parameters, which are kept), the LaTeX spelling of the
free-parameter labels, and the planet letters (the planet's number is used).
-/

namespace Radvel

/-- `ECCENTRICITY_PARAMS_DICT[self.name].split()`, /repo/radvel/basis.py 21-30, 743-756: one of the valid names is missing from the dictionary. -/
def BasisName.eparams : BasisName → Except PyErr (List PName)
  | .perTpEWK => .ok [.e, .w]
  | .perTcSecoswSesinwLogk => .ok [.secosw, .sesinw]
  | .perTcSecoswSesinwK => .ok [.secosw, .sesinw]
  | .perTcEcoswEsinwK => .ok [.ecosw, .esinw]
  | .perTcEWK => .ok [.e, .w]
  | .perTcTpEWK => .error .keyError
  | .logperTcSecoswSesinwK => .ok [.secosw, .sesinw]
  | .logperTcSecoswSesinwLogk => .ok [.secosw, .sesinw]
  | .perTcSeWK => .ok [.se, .w]
  | .logperTpEWLogk => .ok [.e, .w]

/-- `CIRCULAR_PARAMS_DICT[self.name].split()`, /repo/radvel/basis.py 32-41, 758-770. -/
def BasisName.circparams : BasisName → Except PyErr (List PName)
  | .perTpEWK => .ok [.per, .tp, .k]
  | .perTcSecoswSesinwLogk => .ok [.per, .tc, .logk]
  | .perTcSecoswSesinwK => .ok [.per, .tc, .k]
  | .perTcEcoswEsinwK => .ok [.per, .tc, .k]
  | .perTcEWK => .ok [.per, .tc, .k]
  | .perTcTpEWK => .error .keyError
  | .logperTcSecoswSesinwK => .ok [.logper, .tc, .k]
  | .logperTcSecoswSesinwLogk => .ok [.logper, .tc, .logk]
  | .perTcSeWK => .ok [.per, .tc, .k]
  | .logperTpEWLogk => .ok [.logper, .tp, .logk]

/-- A posterior as `model_comp` sees it. `vec` is the vector with its names: names and row indices agree (proved for every vector in C03-C05), so `vector[indices[name]]` is the row stored under `name`.
`dictVary` are the `vary` attributes in the parameter dictionary, which nothing here reads; `likeCache`, `postCache` are the `vary_params` attributes of the likelihood and of the posterior.
Models /repo/radvel/fitting.py 49-333. -/
structure CPost (α : Type) where
  vec : Dict Key (Row α)
  dictVary : Dict Key Bool
  likeCache : Option (List Nat)
  postCache : Option (List Nat)
  basis : BasisName
  nplanets : Nat
  hnames : List Key

/-- The constants written into the vector: `0`, `-np.inf` and `1e-6`. Models /repo/radvel/fitting.py 191, 218, 241, 279-283, 313. -/
structure CompConsts (α : Type) where
  zero : α
  negInf : α
  tiny : α

/-- `vector[indices[k]][1]`, raising `KeyError`. Used for /repo/radvel/fitting.py 192, 217, 240, 275, 309. -/
def getFlag {α : Type} (v : Dict Key (Row α)) (k : Key) : Except PyErr Bool :=
  match v.get? k with
  | none => .error .keyError
  | some r => .ok r.vary

/-- `vector[indices[k]][0] = x`, raising `KeyError`. Used for /repo/radvel/fitting.py 191, 218, 241, 280-282, 313. -/
def putValue {α : Type} (v : Dict Key (Row α)) (k : Key) (x : α) : Except PyErr (Dict Key (Row α)) :=
  match v.get? k with
  | none => .error .keyError
  | some r => .ok (v.set k { r with value := x })

/-- `vector[indices[k]][1] = 0`, raising `KeyError`. Used for /repo/radvel/fitting.py 219, 246, 283, 314. -/
def clearFlag {α : Type} (v : Dict Key (Row α)) (k : Key) : Except PyErr (Dict Key (Row α)) :=
  match v.get? k with
  | none => .error .keyError
  | some r => .ok (v.set k { r with vary := false })

/-- `list_vary_params()` of the posterior and of its likelihood, /repo/radvel/likelihood.py 167-168. -/
def CPost.relist {α : Type} (p : CPost α) : CPost α :=
  { p with likeCache := some (freeRows (p.vec.map Prod.snd)), postCache := some (freeRows (p.vec.map Prod.snd)) }

/-- The entries of `'Free Params'`, /repo/radvel/fitting.py 142-165. -/
inductive FreeLabel
  | K (n : Nat) | e (n : Nat) | dvdt | curv | jit | gp (name : List Char)
  deriving DecidableEq, Repr

/-- One dictionary of the result: the free-parameter labels, `N_free`, the number of free parameters used by BIC and AICc (the likelihood's own count), and the fitted vector, of which the other statistics
are functions. Models /repo/radvel/fitting.py 106-166. -/
structure CompEntry (α : Type) where
  labels : List FreeLabel
  nfree : Nat
  nlike : Nat
  vec : Dict Key (Row α)

/-- `'$K_{'+planet_letters[int(pari[lcparam+0:])]+'}$'`, /repo/radvel/fitting.py 143-148: `int` fails unless the rest of the name is a number. Simplification: only names made of a basis word and a
number count as such. -/
def planetLabel (word : PName) (mk : Nat → FreeLabel) (k : Key) (vary : Bool) : Except PyErr (List FreeLabel) :=
  if word.chars.isPrefixOf k.render ∧ vary then
    match k with
    | .orb p n => if p = word then .ok [mk n] else .error .valueError
    | _ => .error .valueError
  else .ok []

/-- The body of the loop over the names, /repo/radvel/fitting.py 142-163; the flag is `jitterchecked`. -/
def labelStep {α : Type} (circ ecc : PName) (acc : List FreeLabel × Bool) (kr : Key × Row α) : Except PyErr (List FreeLabel × Bool) := do
  let k := kr.1
  let vary := kr.2.vary
  let l1 ← planetLabel circ .K k vary
  let l2 ← planetLabel ecc .e k vary
  let l3 := if k.render = "dvdt".toList ∧ vary then [FreeLabel.dvdt] else []
  let l4 := if k.render = "curv".toList ∧ vary then [FreeLabel.curv] else []
  let isJit := "jit".toList.isPrefixOf k.render ∧ vary ∧ acc.2 = false
  let l5 := if isJit then [FreeLabel.jit] else []
  let l6 := if "gp_amp".toList.isPrefixOf k.render ∧ vary then [FreeLabel.gp ((k.render.drop 6).filter (· ≠ '_'))] else []
  return (acc.1 ++ l1 ++ l2 ++ l3 ++ l4 ++ l5 ++ l6, if isJit then true else acc.2)

/-- `freepar`, /repo/radvel/fitting.py 131-163. -/
def freeLabels {α : Type} (b : BasisName) (v : Dict Key (Row α)) : Except PyErr (List FreeLabel) := do
  let es ← b.eparams
  let cs ← b.circparams
  let r ← v.foldlM (labelStep (cs.getLastD .k) (es.headD .e)) ([], false)
  return r.1

/-- The number of free parameters according to a cache, /repo/radvel/likelihood.py 160-165. -/
def cacheCount {α : Type} (v : Dict Key (Row α)) (c : Option (List Nat)) : Nat := (c.getD (freeRows (v.map Prod.snd))).length

/-- The rows that the fit writes: the likelihood's cache, refreshed if its length is not that of the array, /repo/radvel/likelihood.py 146-150. -/
def fitRows {α : Type} (p : CPost α) : List Nat :=
  match p.likeCache with
  | none => freeRows (p.vec.map Prod.snd)
  | some c => if c.length ≠ cacheCount p.vec p.postCache then freeRows (p.vec.map Prod.snd) else c

/-- `maxlike_fitting(post)`, /repo/radvel/fitting.py 14-46, 88, as far as it matters here: new values in the rows that are fitted. The values are an arbitrary function `opt` of the vector and of those rows
(the fit itself is modelled in `Verif/Model/MaxLike.lean`); evaluations read the vector, not the dictionary. -/
def fitPost {α : Type} (opt : Dict Key (Row α) → List Nat → Nat → α) (p : CPost α) : CPost α :=
  { p with vec := p.vec.zipIdx.map (fun x => (x.1.1, if x.2 ∈ fitRows p then { x.1.2 with value := opt p.vec (fitRows p) x.2 } else x.1.2))
           dictVary := p.vec.map (fun x => (x.1, x.2.vary))
           likeCache := some (fitRows p)
           postCache := some (p.postCache.getD (freeRows (p.vec.map Prod.snd))) }

/-- The comparison without parameters, /repo/radvel/fitting.py 86-167. The fit changes the posterior that is passed. -/
def leafComp {α : Type} (opt : Dict Key (Row α) → List Nat → Nat → α) (p : CPost α) : Except PyErr (CompEntry α × CPost α) := do
  let q := fitPost opt p
  let labels ← freeLabels q.basis q.vec
  return (⟨labels, cacheCount q.vec q.postCache, cacheCount q.vec q.likeCache, q.vec⟩, q)

/-- The kinds of comparison, /repo/radvel/fitting.py 78-82; other strings raise `AssertionError`. -/
inductive Comp | e | nplanets | trend | jit | gp
  deriving DecidableEq, Repr

/-- `itertools.combinations(l, n)`: lexicographic order. Used for /repo/radvel/fitting.py 268-269, 301-302. -/
def combinations {β : Type} : Nat → List β → List (List β)
  | 0, _ => [[]]
  | _ + 1, [] => []
  | n + 1, a :: l => (combinations n l).map (a :: ·) ++ combinations (n + 1) l

/-- `plgroups`, /repo/radvel/fitting.py 266-269 and 299-302. -/
def planetGroups (N : Nat) : List (List Nat) := (List.range N).flatMap fun i => combinations (i + 1) ((List.range N).map (· + 1))

/-- `[pari+''+sufi for pari in allparams]`, /repo/radvel/fitting.py 273 and 306. -/
def planetKeys (ws : List PName) (n : Nat) : List Key := ws.map fun w => Key.orb w n

/-- A comparison of one posterior that extends the list: the recursive calls. The second result is the posterior object afterwards. Models /repo/radvel/fitting.py 196-199, 224-231, 245, 287, 317. -/
abbrev CompRec (α : Type) := CPost α → List (CompEntry α) → Except PyErr (List (CompEntry α) × CPost α)

/-- `any([post.vector.vector[post.vector.indices[pari]][1] for pari in pparam])`, /repo/radvel/fitting.py 275 and 309. -/
def anyFree {α : Type} (v : Dict Key (Row α)) (ks : List Key) : Except PyErr Bool := do
  let fs ← ks.mapM (getFlag v)
  return fs.any id

/-- The writes for one parameter of a removed planet, /repo/radvel/fitting.py 279-283. -/
def removeOne {α : Type} (c : CompConsts α) (v : Dict Key (Row α)) (k : Key) : Except PyErr (Dict Key (Row α)) := do
  let v ← if k.render.head? = some 'k' then putValue v k c.zero else .ok v
  let v ← if "logk".toList.isPrefixOf k.render then putValue v k c.negInf else .ok v
  clearFlag v k

/-- The writes for one eccentricity parameter, /repo/radvel/fitting.py 313-314. -/
def circOne {α : Type} (c : CompConsts α) (v : Dict Key (Row α)) (k : Key) : Except PyErr (Dict Key (Row α)) := do
  let v ← putValue v k c.zero
  clearFlag v k

/-- One turn of the loop over the groups of planets, /repo/radvel/fitting.py 274-287 and 308-318. -/
def groupStep {α : Type} (edit : Dict Key (Row α) → Key → Except PyErr (Dict Key (Row α))) (ws : List PName) (rec : CompRec α) (p : CPost α) (mc : List (CompEntry α)) (g : List Nat) :
    Except PyErr (List (CompEntry α)) := do
  let free ← g.mapM fun n => anyFree p.vec (planetKeys ws n)
  if free.all id then
    let v ← (g.flatMap (planetKeys ws)).foldlM edit p.vec
    let r ← rec ({ p with vec := v } : CPost α).relist mc
    return r.1
  else return mc

/-- The loop over the groups and the final fit of the full model, /repo/radvel/fitting.py 274-291 and 308-326. -/
def groupStage {α : Type} (edit : Dict Key (Row α) → Key → Except PyErr (Dict Key (Row α))) (ws : List PName) (rec : CompRec α) : CompRec α := fun p mc => do
  let mc ← (planetGroups p.nplanets).foldlM (groupStep edit ws rec p) mc
  let r ← rec p.relist mc
  return (r.1, p)

/-- The 'e' branch, /repo/radvel/fitting.py 293-326. -/
def eStage {α : Type} (c : CompConsts α) (rec : CompRec α) : CompRec α := fun p mc => do
  let es ← p.basis.eparams
  groupStage (circOne c) es rec p mc

/-- The 'nplanets' branch, /repo/radvel/fitting.py 257-291. -/
def planetStage {α : Type} (c : CompConsts α) (rec : CompRec α) : CompRec α := fun p mc => do
  let es ← p.basis.eparams
  let cs ← p.basis.circparams
  groupStage (removeOne c) (es ++ cs) rec p mc

/-- One turn of the loop of the 'trend' branch, /repo/radvel/fitting.py 239-247: the value is set to zero, a copy is fitted in which the parameter is still free, and then it is fixed. -/
def trendStep {α : Type} (c : CompConsts α) (rec : CompRec α) (acc : CPost α × List (CompEntry α)) (k : Key) : Except PyErr (CPost α × List (CompEntry α)) := do
  let p := acc.1
  let free ← getFlag p.vec k
  if free then
    let v ← putValue p.vec k c.zero
    let p := { p with vec := v }
    let r ← rec p.relist acc.2
    let v ← clearFlag p.vec k
    return ({ p with vec := v }, r.1)
  else return (p, acc.2)

/-- The 'trend' branch, /repo/radvel/fitting.py 234-255. -/
def trendStage {α : Type} (c : CompConsts α) (rec : CompRec α) : CompRec α := fun p mc => do
  let acc ← [Key.curv, Key.dvdt].foldlM (trendStep c rec) (p, mc)
  let r ← rec acc.1.relist acc.2
  return (r.1, p)

/-- `len(parami) >= 3 and parami[:3] == 'jit' and vector[...][1]`. Models /repo/radvel/fitting.py 216-217. -/
def isFreeJit {α : Type} (kr : Key × Row α) : Bool := "jit".toList.isPrefixOf kr.1.render && kr.2.vary

/-- The 'jit' branch, /repo/radvel/fitting.py 210-232. -/
def jitStage {α : Type} (c : CompConsts α) (rec : CompRec α) : CompRec α := fun p mc => do
  let v := p.vec.map fun kr => if isFreeJit kr then (kr.1, { kr.2 with value := c.tiny, vary := false }) else kr
  let mc ← if p.vec.any isFreeJit then (rec ({ p with vec := v } : CPost α).relist mc).map Prod.fst else .ok mc
  let r ← rec p.relist mc
  return (r.1, p)

/-- One turn of the loop over the hyperparameters, /repo/radvel/fitting.py 189-194: for a free one the last line writes column 0 (the value), not column 1 (the flag); `False` is stored as 0. -/
def gpStep {α : Type} (c : CompConsts α) (v : Dict Key (Row α)) (k : Key) : Except PyErr (Dict Key (Row α)) := do
  let v ← if "gp_amp".toList.isPrefixOf k.render then putValue v k c.zero else .ok v
  let free ← getFlag v k
  if free then putValue v k c.zero else return v

/-- The 'gp' branch, /repo/radvel/fitting.py 172-208: the last call gets the caller's posterior itself. -/
def gpStage {α : Type} (c : CompConsts α) (rec : CompRec α) : CompRec α := fun p mc => do
  if p.vec.keys.any (fun k => isInfix "gp_amp".toList k.render) then
    let v ← p.hnames.foldlM (gpStep c) p.vec
    let r ← rec { p with vec := v } mc
    rec p.relist r.1
  else rec p.relist mc

/-- `[pi for pi in params if pi != x]`. Used for /repo/radvel/fitting.py 213, 236. -/
def without (x : Comp) (params : List Comp) : List Comp := params.filter (· ≠ x)

theorem without_length {x : Comp} {params : List Comp} (h : x ∈ params) : (without x params).length < params.length := by
  unfold without
  rw [List.length_filter_lt_length_iff_exists]
  exact ⟨x, h, by simp⟩

/-- `model_comp`, /repo/radvel/fitting.py 49-333, for a list `mc` that is passed; the posterior afterwards is returned too. -/
def modelComp {α : Type} (c : CompConsts α) (opt : Dict Key (Row α) → List Nat → Nat → α) (params : List Comp) : CompRec α := fun p mc =>
  if params = [] then do
    let r ← leafComp opt p
    return (mc ++ [r.1], r.2)
  else if h : Comp.gp ∈ params then gpStage c (modelComp c opt (without .gp params)) p mc
  else if h : Comp.jit ∈ params then jitStage c (modelComp c opt (without .jit params)) p mc
  else if h : Comp.trend ∈ params then trendStage c (modelComp c opt (without .trend params)) p mc
  else if h : Comp.nplanets ∈ params then planetStage c (modelComp c opt (without .nplanets params)) p mc
  else if h : Comp.e ∈ params then eStage c (modelComp c opt (without .e params)) p mc
  else .error .notImplementedError
termination_by params.length
decreasing_by all_goals exact without_length h

/-- A call of `model_comp` with or without the argument `mc_list`: the default is one list object that lives as long as the module and is extended in place, /repo/radvel/fitting.py 49, 166. `store` is its
content before the call; the third result is its content afterwards. Simplification: after an exception the content is not given. -/
def modelCompCall {α : Type} (c : CompConsts α) (opt : Dict Key (Row α) → List Nat → Nat → α) (store : List (CompEntry α)) (params : List Comp) (arg : Option (List (CompEntry α))) (p : CPost α) :
    Except PyErr (List (CompEntry α) × CPost α × List (CompEntry α)) :=
  match arg with
  | some mc => (modelComp c opt params p mc).map fun r => (r.1, r.2, store)
  | none => (modelComp c opt params p store).map fun r => (r.1, r.2, r.1)

/-- `collections.Counter(a) == collections.Counter(b)`. Used for /repo/radvel/driver.py 447-448. -/
def sameCounts (a b : List FreeLabel) : Bool := a.isPerm b

/-- The removal of repeated entries, /repo/radvel/driver.py 442-453. -/
def dedupe {α : Type} (l : List (CompEntry α)) : List (CompEntry α) :=
  l.foldl (fun seen d => if seen.any (fun s => sameCounts d.labels s.labels) then seen else seen ++ [d]) []

/-- `--fixjitter`, /repo/radvel/driver.py 430-433: changes the dictionary. -/
def fixJitter {α : Type} (p : CPost α) : CPost α :=
  { p with dictVary := p.dictVary.map fun x => if "jit".toList.isPrefixOf x.1.render then (x.1, false) else x }

/-- The loop over the comparison types with `--unmixed`, /repo/radvel/driver.py 435-441: results, the posterior and the module-level list. -/
def unmixedLoop {α : Type} (c : CompConsts α) (opt : Dict Key (Row α) → List Nat → Nat → α) : List Comp → CPost α → List (CompEntry α) → List (CompEntry α) →
    Except PyErr (List (CompEntry α) × CPost α × List (CompEntry α))
  | [], p, store, stats => .ok (stats, p, store)
  | t :: ts, p, store, stats =>
    match modelCompCall c opt store [t] none p with
    | .error e => .error e
    | .ok (r, p, store) => unmixedLoop c opt ts p store (stats ++ r)

/-- `ic_compare` without reading and writing of files, /repo/radvel/driver.py 420-456. -/
def icCompare {α : Type} (c : CompConsts α) (opt : Dict Key (Row α) → List Nat → Nat → α) (store : List (CompEntry α)) (simple fixjitter mixed : Bool) (types : List Comp) (p : CPost α) :
    Except PyErr (List (CompEntry α) × List (CompEntry α)) :=
  if simple then (modelCompCall c opt store [] none p).map fun r => (r.1, r.2.2)
  else
    let p := if fixjitter then fixJitter p else p
    if mixed then (modelCompCall c opt store types none p).map fun r => (r.1, r.2.2)
    else (unmixedLoop c opt types p store []).map fun r => (dedupe r.1, r.2.2)

end Radvel
