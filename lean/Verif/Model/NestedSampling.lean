import Verif.Model.Status
import Verif.Py.Float

/-!
Model of /repo/radvel/nested_sampling.py.

Keyword dictionaries are objects on a heap, so that a caller sees what a call does to them. The file system maps paths, as texts, to directories and files; symbolic links and different spellings of the same path are
left out. The packages that do the sampling (dynesty, ultranest, pymultinest, nautilus) are parameters: what they are called with is recorded, what they return and do to files is arbitrary.
-/

namespace Radvel

/-- Keyword values: flags, paths, `None`, and values given by the user that radvel does not look at. Models /repo/radvel/nested_sampling.py 44-66, 140-152, 210-231, 301-315. -/
inductive NsValue
  | flag (b : Bool)
  | text (t : Text)
  | none
  | other (n : Nat)
deriving DecidableEq

/-- A keyword dictionary. Models /repo/radvel/nested_sampling.py 44-45, 140-141, 210, 301-302. -/
abbrev Kwargs := Dict Text NsValue

/-- A table of samples: column names and rows. Models /repo/radvel/nested_sampling.py 416-423. -/
structure NsTable where
  columns : List Text
  rows : List (List Fl)

/-- What a sampler returns, or a table and evidence as saved. Models /repo/radvel/nested_sampling.py 95-100, 425-431. -/
structure NsEvidence where
  lnZ : Fl
  lnZerr : Fl

/-- What is at a path. Used for /repo/radvel/nested_sampling.py 64-93, 385-431. -/
inductive FsNode
  | dir
  | raw (n : Nat)
  | results (table : NsTable) (ev : NsEvidence)

/-- The file system. Used for /repo/radvel/nested_sampling.py 64-93, 385-431. -/
abbrev FS := Dict Text FsNode

/-- The samplers, /repo/radvel/nested_sampling.py 331-337. -/
inductive NsSampler
  | ultranest
  | dynestyStatic
  | dynestyDynamic
  | multinest
  | nautilus
deriving DecidableEq

/-- A call of a package: how the sampler object is made (restored from a file or made with keywords) and the keywords of the run. Models /repo/radvel/nested_sampling.py 69-90, 157-163, 255, 318-321. -/
structure NsCall where
  sampler : NsSampler
  restore : Option Text
  init : Kwargs
  run : Kwargs
deriving DecidableEq

/-- The file system, the caller's dictionaries and those made during calls, and the calls of the packages (newest first). Models /repo/radvel/nested_sampling.py 340-433. -/
structure NsWorld where
  heap : List Kwargs
  fs : FS
  calls : List NsCall

/-- The packages: whether they can be imported, what making the sampler does, what sampling does. Used for /repo/radvel/nested_sampling.py 13-328. -/
structure Packages where
  installed : NsSampler → Bool
  make : NsSampler → Option Text → Kwargs → FS → Except PyErr Unit × FS
  sample : NsCall → FS → Except PyErr (List (List Fl) × NsEvidence) × FS

/-- What is used of the posterior: whether the priors are proper (C48), names of the free parameters, and the log posterior. Models /repo/radvel/nested_sampling.py 340-433. -/
structure NsPost where
  proper : Except PyErr Unit
  names : List Text
  logprob : List Fl → Except PyErr Fl

/-- A step: it may change the world and then raise. Models /repo/radvel/nested_sampling.py 340-433. -/
def NsM (α : Type) : Type := NsWorld → Except PyErr α × NsWorld

/-- Sequencing: an exception ends the call and what was done stays done. Models /repo/radvel/nested_sampling.py 340-433. -/
instance : Monad NsM where
  pure a := fun w => (.ok a, w)
  bind m f := fun w =>
    match m w with
    | (.ok a, w') => f a w'
    | (.error e, w') => (.error e, w')

/-- Raising. Used for /repo/radvel/nested_sampling.py 56-60, 143-147, 221-227, 305-311, 407-413. -/
def nsRaise {α : Type} (e : PyErr) : NsM α := fun w => (.error e, w)

/-- `if b: raise e`. Used for /repo/radvel/nested_sampling.py 56-60, 143-147, 221-227, 305-311, 407-413. -/
def nsRaiseIf (b : Bool) (e : PyErr) : NsM Unit := fun w => if b then (.error e, w) else (.ok (), w)

/-- A dictionary. Used for /repo/radvel/nested_sampling.py 44-45, 140-141, 210, 301-302. -/
def nsGet (r : Nat) : NsM Kwargs := fun w => (.ok (w.heap[r]?.getD []), w)

/-- `kwargs or {}`, /repo/radvel/nested_sampling.py 44-45, 140-141, 210, 301-302: a new dictionary if the argument is `None` or empty, else the argument itself. -/
def nsOrEmpty (r : Option Nat) : NsM Nat := fun w =>
  match r with
  | none => (.ok w.heap.length, { w with heap := w.heap ++ [[]] })
  | some i => if (w.heap[i]?.getD []) = [] then (.ok w.heap.length, { w with heap := w.heap ++ [[]] }) else (.ok i, w)

/-- `kwargs[key] = value`, /repo/radvel/nested_sampling.py 58, 66, 84, 151, 152, 225, 231, 310, 315. -/
def nsPut (r : Nat) (k : String) (v : NsValue) : NsM Unit := fun w => (.ok (), { w with heap := w.heap.set r (Dict.set (w.heap[r]?.getD []) k.toList v) })

/-- `if key in kwargs: raise ValueError`, /repo/radvel/nested_sampling.py 56, 60, 143, 147, 221, 227, 305, 311. -/
def nsReject (r : Nat) (k : String) : NsM Unit := fun w => if Dict.has (w.heap[r]?.getD []) k.toList then (.error .valueError, w) else (.ok (), w)

/-- `kwargs.setdefault(key, value)`, /repo/radvel/nested_sampling.py 303. -/
def nsSetDefault (r : Nat) (k : String) (v : NsValue) : NsM Unit := fun w => if Dict.has (w.heap[r]?.getD []) k.toList then (.ok (), w) else nsPut r k v w

/-- `os.path.join(a, b)` for `b` that does not start with a slash. Used for /repo/radvel/nested_sampling.py 64-66, 225, 310. -/
def joinPath (a : Text) (b : String) : Text := if a = [] ∨ a.getLast? = some '/' then a ++ b.toList else a ++ '/' :: b.toList

/-- `os.path.dirname(p)`. Used for /repo/radvel/nested_sampling.py 86-88. -/
def dirName (p : Text) : Text :=
  let head := (p.reverse.dropWhile (· ≠ '/')).reverse
  if head.all (· = '/') then head else (head.reverse.dropWhile (· = '/')).reverse

/-- `os.path.exists(p)`. Used for /repo/radvel/nested_sampling.py 69, 82, 86. -/
def fsExists (fs : FS) (p : Text) : Bool := fs.has p

/-- `os.path.isdir(p)`. Used for /repo/radvel/nested_sampling.py 86-88, 385-393. -/
def fsIsDir (fs : FS) (p : Text) : Bool :=
  match fs.get? p with
  | some .dir => true
  | _ => false

/-- `os.mkdir(p)`; the empty directory name is the working directory. Used for /repo/radvel/nested_sampling.py 88. -/
def mkDir (fs : FS) (p : Text) : Except PyErr FS :=
  if p = [] then .error .fileNotFoundError
  else if fsExists fs p then .error .fileExistsError
  else if dirName p = [] ∨ fsIsDir fs (dirName p) = true then .ok (Dict.set fs p .dir)
  else .error .fileNotFoundError

/-- `os.makedirs(p, exist_ok=ok)`, from the standard library, for paths that do not end with a slash; `fuel` bounds the number of missing parents. A missing parent that appears meanwhile is left out.
Used for /repo/radvel/nested_sampling.py 88. -/
def makeDirs : Nat → FS → Text → Bool → Except PyErr FS
  | 0, fs, p, ok => if ok && fsIsDir fs p then .ok fs else mkDir fs p
  | fuel + 1, fs, p, ok =>
    if dirName p ≠ [] ∧ fsExists fs (dirName p) = false then
      match makeDirs fuel fs (dirName p) ok with
      | .error e => .error e
      | .ok fs' => if ok && fsIsDir fs' p then .ok fs' else mkDir fs' p
    else if ok && fsIsDir fs p then .ok fs
    else mkDir fs p

/-- `os.makedirs(p, exist_ok=ok)`. Used for /repo/radvel/nested_sampling.py 88. -/
def nsMakeDirs (p : Text) (ok : Bool) : NsM Unit := fun w =>
  match makeDirs p.length w.fs p ok with
  | .error e => (.error e, w)
  | .ok fs => (.ok (), { w with fs := fs })

/-- `shutil.rmtree(p)`: the directory and everything below it. Used for /repo/radvel/nested_sampling.py 267. -/
def nsRemoveTree (p : Text) : NsM Unit := fun w =>
  if fsIsDir w.fs p then (.ok (), { w with fs := w.fs.filter fun e => !(e.1 = p) && !((p ++ ['/']).isPrefixOf e.1) })
  else (.error .fileNotFoundError, w)

/-- Writing a file. Used for /repo/radvel/nested_sampling.py 93, 425-431. -/
def nsWrite (p : Text) (c : FsNode) : NsM Unit := fun w =>
  if fsIsDir w.fs p then (.error .osError, w)
  else if dirName p = [] ∨ fsIsDir w.fs (dirName p) = true then (.ok (), { w with fs := Dict.set w.fs p c })
  else (.error .fileNotFoundError, w)

/-- Making the sampler object, /repo/radvel/nested_sampling.py 70, 72-77, 157-163, 318-320. A caller who gives `wrapped_params` (ultranest) or `n_dim` (nautilus) gets a TypeError; here this is one of the ways in which the package may fail. -/
def nsMake (pk : Packages) (s : NsSampler) (restore : Option Text) (init : Kwargs) : NsM Unit := fun w => ((pk.make s restore init w.fs).1, { w with fs := (pk.make s restore init w.fs).2 })

/-- Sampling and reading its results, /repo/radvel/nested_sampling.py 90, 95-100, 165-179, 255-264, 321-327. -/
def nsSample (pk : Packages) (c : NsCall) : NsM (List (List Fl) × NsEvidence) := fun w => ((pk.sample c w.fs).1, { w with fs := (pk.sample c w.fs).2, calls := c :: w.calls })

/-- The value of a keyword that is a path. Used for /repo/radvel/nested_sampling.py 66, 152, 225, 310. -/
def pathValue (d : Kwargs) (k : String) : Option Text :=
  match d.get? k.toList with
  | some (.text t) => some t
  | _ => none

/-- Whether the file of this name exists; no name, no file; /repo/radvel/nested_sampling.py 69, 82, 86. -/
def nsThere (ck : Option Text) : NsM Bool := fun w =>
  match ck with
  | none => (.ok false, w)
  | some p => (.ok (fsExists w.fs p), w)

/-- Setting a path below the output directory, if there is one, /repo/radvel/nested_sampling.py 64-66, 309-310. -/
def nsPutPath (r : Nat) (k : String) (d : Option Text) (name : String) : NsM Unit :=
  match d with
  | none => pure ()
  | some d => nsPut r k (.text (joinPath d name))

/-- Making the dynesty sampler, /repo/radvel/nested_sampling.py 69-84. Returns what it was made from. -/
def dynestyMake (pk : Packages) (s : NsSampler) (proceed : Bool) (sk rk : Nat) (ck : Option Text) (there : Bool) : NsM (Option Text × Kwargs) :=
  if proceed && there then do
    nsMake pk s ck []
    pure (ck, [])
  else do
    let init ← nsGet sk
    nsMake pk s none init
    if proceed && ck.isSome then do
      nsPut rk "resume" (.flag false)
      pure (none, init)
    else pure (none, init)

/-- The directory of the checkpoint file, /repo/radvel/nested_sampling.py 86-88. -/
def dynestyDir (ck : Option Text) (there : Bool) : NsM Unit :=
  match ck with
  | none => pure ()
  | some p => if there then pure () else nsMakeDirs (dirName p) false

/-- Saving the final state, /repo/radvel/nested_sampling.py 92-93. -/
def dynestySave (ck : Option Text) : NsM Unit :=
  match ck with
  | none => pure ()
  | some p => nsWrite p (.raw 0)

/-- `_run_dynesty`, /repo/radvel/nested_sampling.py 13-102; `s` is one of the two dynesty samplers. Making the sampler is taken not to create the checkpoint file. -/
def runDynesty (pk : Packages) (s : NsSampler) (outdir : Option Text) (proceed : Bool) (sampler_kwargs run_kwargs : Option Nat) : NsM (List (List Fl) × NsEvidence) := do
  nsRaiseIf (!(pk.installed s)) .importError
  let rk ← nsOrEmpty run_kwargs
  let sk ← nsOrEmpty sampler_kwargs
  nsReject rk "resume"
  nsPut rk "resume" (.flag proceed)
  nsReject rk "checkpoint_file"
  nsPutPath rk "checkpoint_file" outdir "sampler.save"
  let d ← nsGet rk
  let there ← nsThere (pathValue d "checkpoint_file")
  let made ← dynestyMake pk s proceed sk rk (pathValue d "checkpoint_file") there
  dynestyDir (pathValue d "checkpoint_file") there
  let run ← nsGet rk
  let res ← nsSample pk { sampler := s, restore := made.1, init := made.2, run := run }
  dynestySave (pathValue d "checkpoint_file")
  pure res

/-- `_run_ultranest`, /repo/radvel/nested_sampling.py 105-181. The step sampler for more than seven parameters and the wrapped parameters are modelled in Model/Wrapped.lean. -/
def runUltranest (pk : Packages) (outdir : Option Text) (proceed : Bool) (sampler_kwargs run_kwargs : Option Nat) : NsM (List (List Fl) × NsEvidence) := do
  nsRaiseIf (!(pk.installed .ultranest)) .importError
  let rk ← nsOrEmpty run_kwargs
  let sk ← nsOrEmpty sampler_kwargs
  nsReject sk "log_dir"
  nsReject sk "resume"
  nsPut sk "resume" (if proceed then .flag true else .text "overwrite".toList)
  nsPut sk "log_dir" (match outdir with | none => .none | some d => .text d)
  let init ← nsGet sk
  nsMake pk .ultranest none init
  let run ← nsGet rk
  nsSample pk { sampler := .ultranest, restore := none, init := init, run := run }

/-- Removing the temporary directory, /repo/radvel/nested_sampling.py 266-267. -/
def multinestClean (outdir : Option Text) : NsM Unit :=
  match outdir with
  | none => nsRemoveTree "tmpdir".toList
  | some _ => pure ()

/-- `_run_multinest`, /repo/radvel/nested_sampling.py 184-269. -/
def runMultinest (pk : Packages) (outdir : Option Text) (overwrite proceed : Bool) (run_kwargs : Option Nat) : NsM (List (List Fl) × NsEvidence) := do
  nsRaiseIf (!(pk.installed .multinest)) .importError
  let rk ← nsOrEmpty run_kwargs
  nsReject rk "outputfiles_basename"
  nsPut rk "outputfiles_basename" (.text (joinPath (outdir.getD "tmpdir".toList) "out"))
  nsReject rk "resume"
  nsPut rk "resume" (.flag proceed)
  nsMakeDirs (outdir.getD "tmpdir".toList) (outdir.isNone || overwrite || proceed)
  let run ← nsGet rk
  let res ← nsSample pk { sampler := .multinest, restore := none, init := [], run := run }
  multinestClean outdir
  pure res

/-- `_run_nautilus`, /repo/radvel/nested_sampling.py 272-328. -/
def runNautilus (pk : Packages) (outdir : Option Text) (proceed : Bool) (sampler_kwargs run_kwargs : Option Nat) : NsM (List (List Fl) × NsEvidence) := do
  nsRaiseIf (!(pk.installed .nautilus)) .importError
  let sk ← nsOrEmpty sampler_kwargs
  let rk ← nsOrEmpty run_kwargs
  nsSetDefault rk "verbose" (.flag true)
  nsReject sk "filepath"
  nsPutPath sk "filepath" outdir "nautilus_output.hdf5"
  nsReject sk "resume"
  nsPut sk "resume" (.flag proceed)
  let init ← nsGet sk
  nsMake pk .nautilus none init
  let run ← nsGet rk
  nsSample pk { sampler := .nautilus, restore := none, init := init, run := run }

/-- The arguments of `run`, /repo/radvel/nested_sampling.py 340-348; dictionaries are references, `None` is `none`. -/
structure NsArgs where
  outdir : Option Text
  overwrite : Bool
  proceed : Bool
  sampler : Text
  sampler_kwargs : Option Nat
  run_kwargs : Option Nat

/-- `sampler_kwargs is not None and len(sampler_kwargs) > 0`, /repo/radvel/nested_sampling.py 407. -/
def nsNonEmpty (r : Option Nat) : NsM Bool := fun w =>
  match r with
  | none => (.ok false, w)
  | some i => (.ok (!((w.heap[i]?.getD []).isEmpty)), w)

/-- The case `sampler == "multinest"`, /repo/radvel/nested_sampling.py 406-409. -/
def startMultinest (pk : Packages) (a : NsArgs) : NsM (List (List Fl) × NsEvidence) := do
  let given ← nsNonEmpty a.sampler_kwargs
  nsRaiseIf given .typeError
  runMultinest pk a.outdir (a.overwrite || a.proceed) a.proceed a.run_kwargs

/-- The choice of the sampler, /repo/radvel/nested_sampling.py 395-413. -/
def startSampler (pk : Packages) (a : NsArgs) : NsM (List (List Fl) × NsEvidence) :=
  if lower a.sampler = "ultranest".toList then runUltranest pk a.outdir a.proceed a.sampler_kwargs a.run_kwargs
  else if lower a.sampler = "dynesty-static".toList then runDynesty pk .dynestyStatic a.outdir a.proceed a.sampler_kwargs a.run_kwargs
  else if lower a.sampler = "dynesty-dynamic".toList then runDynesty pk .dynestyDynamic a.outdir a.proceed a.sampler_kwargs a.run_kwargs
  else if lower a.sampler = "multinest".toList ∨ lower a.sampler = "pymultinest".toList then startMultinest pk a
  else if lower a.sampler = "nautilus".toList then runNautilus pk a.outdir a.proceed a.sampler_kwargs a.run_kwargs
  else nsRaise .valueError

/-- The check for existing results, /repo/radvel/nested_sampling.py 385-393. -/
def checkResults (a : NsArgs) : NsM Unit := fun w =>
  match a.outdir with
  | none => (.ok (), w)
  | some d => if fsExists w.fs (joinPath d "results.hdf5") && !(a.overwrite || a.proceed) then (.error .fileExistsError, w) else (.ok (), w)

/-- Whether every row has as many values as there are parameters; else `DataFrame(...)` raises, /repo/radvel/nested_sampling.py 416. -/
def rowsFit (post : NsPost) (samples : List (List Fl)) : Bool := samples.all fun r => r.length = post.names.length

/-- One row with its log posterior, /repo/radvel/nested_sampling.py 417-420. -/
def nsRow (post : NsPost) (r : List Fl) : Except PyErr (List Fl) :=
  match post.logprob r with
  | .error e => .error e
  | .ok x => .ok (r ++ [x])

/-- The table of samples, /repo/radvel/nested_sampling.py 416-423. -/
def nsTable (post : NsPost) (samples : List (List Fl)) : Except PyErr NsTable :=
  if rowsFit post samples then
    match samples.mapM (nsRow post) with
    | .error e => .error e
    | .ok rows => .ok { columns := post.names ++ ["lnprobability".toList], rows := rows }
  else .error .valueError

/-- Saving the results, /repo/radvel/nested_sampling.py 425-431. -/
def saveResults (a : NsArgs) (t : NsTable) (ev : NsEvidence) : NsM Unit :=
  match a.outdir with
  | none => pure ()
  | some d => nsWrite (joinPath d "results.hdf5") (.results t ev)

/-- A value computed without touching the world. Used for /repo/radvel/nested_sampling.py 416-423. -/
def nsLift {α : Type} (x : Except PyErr α) : NsM α := fun w => (x, w)

/-- `run`, /repo/radvel/nested_sampling.py 340-433; the sampler object in the result is left out. -/
def nsRun (pk : Packages) (post : NsPost) (a : NsArgs) : NsM (NsTable × NsEvidence) := do
  nsLift post.proper
  checkResults a
  let res ← startSampler pk a
  let t ← nsLift (nsTable post res.1)
  saveResults a t res.2
  pure (t, res.2)

/-- `load_results`, /repo/radvel/nested_sampling.py 436-450. -/
def loadResults (fs : FS) (p : Text) : Except PyErr (NsTable × NsEvidence) :=
  match fs.get? p with
  | some (.results t ev) => .ok (t, ev)
  | some _ => .error .osError
  | none => .error .fileNotFoundError

end Radvel
