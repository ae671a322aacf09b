import Verif.Model.NestedSampling

/-! Specification for nested sampling: names of the samplers, reserved keywords, and packages that keep to the location they are given. -/

namespace Radvel

/-- The sampler of a name, in any case. -/
def SamplerName (name : Text) (s : NsSampler) : Prop :=
  match s with
  | .ultranest => lower name = "ultranest".toList
  | .dynestyStatic => lower name = "dynesty-static".toList
  | .dynestyDynamic => lower name = "dynesty-dynamic".toList
  | .multinest => lower name = "multinest".toList ∨ lower name = "pymultinest".toList
  | .nautilus => lower name = "nautilus".toList

/-- What a dictionary argument holds; `None` counts as empty. -/
def content (w : NsWorld) : Option Nat → Kwargs
  | none => []
  | some i => w.heap[i]?.getD []

/-- The argument that radvel's own keywords are added to. -/
def NsArgs.target (a : NsArgs) : NsSampler → Option Nat
  | .ultranest => a.sampler_kwargs
  | .nautilus => a.sampler_kwargs
  | _ => a.run_kwargs

/-- The keywords that radvel sets itself. -/
def reserved : NsSampler → List Text
  | .ultranest => ["log_dir".toList, "resume".toList]
  | .nautilus => ["filepath".toList, "resume".toList]
  | .multinest => ["outputfiles_basename".toList, "resume".toList]
  | _ => ["resume".toList, "checkpoint_file".toList]

/-- The dictionary arguments exist. -/
def NsArgs.Valid (a : NsArgs) (w : NsWorld) : Prop := ∀ i, a.sampler_kwargs = some i ∨ a.run_kwargs = some i → i < w.heap.length

/-- Where a package is told to write. -/
def nsLocation (s : NsSampler) (init run : Kwargs) : Option Text :=
  match s with
  | .ultranest => pathValue init "log_dir"
  | .nautilus => pathValue init "filepath"
  | .multinest => pathValue run "outputfiles_basename"
  | _ => pathValue run "checkpoint_file"

/-- Packages that only touch paths starting with the location they are given, and nothing without one. -/
structure Packages.Polite (pk : Packages) : Prop where
  make : ∀ s restore init fs p, (∀ loc, nsLocation s init [] = some loc → ¬ loc <+: p) → Dict.get? (pk.make s restore init fs).2 p = Dict.get? fs p
  sample : ∀ c fs p, (∀ loc, nsLocation c.sampler c.init c.run = some loc → ¬ loc <+: p) → Dict.get? (pk.sample c fs).2 p = Dict.get? fs p

/-- Distinct dictionaries for the two arguments, unless empty. -/
def NsArgs.Apart (a : NsArgs) (w : NsWorld) : Prop := ∀ i, a.sampler_kwargs = some i → a.run_kwargs = some i → content w (some i) = []

/-- The checkpoint file of dynesty. -/
def checkpoint (a : NsArgs) : Option Text := a.outdir.map fun d => joinPath d "sampler.save"

/-- A keyword with a path below the output directory, if there is one. -/
def withPath (d : Kwargs) (k : String) : Option Text → Kwargs
  | none => d
  | some p => Dict.set d k.toList (.text p)

/-- The call of the package that is asked for: the caller's keywords and radvel's own. -/
def expectedCall (s : NsSampler) (a : NsArgs) (w : NsWorld) : NsCall :=
  let sk := content w a.sampler_kwargs
  let rk := content w a.run_kwargs
  match s with
  | .ultranest =>
    { sampler := s, restore := none,
      init := Dict.set (Dict.set sk "resume".toList (if a.proceed then .flag true else .text "overwrite".toList)) "log_dir".toList (match a.outdir with | none => .none | some d => .text d),
      run := rk }
  | .nautilus =>
    { sampler := s, restore := none,
      init := Dict.set (withPath sk "filepath" (a.outdir.map fun d => joinPath d "nautilus_output.hdf5")) "resume".toList (.flag a.proceed),
      run := if Dict.has rk "verbose".toList then rk else Dict.set rk "verbose".toList (.flag true) }
  | .multinest =>
    { sampler := s, restore := none, init := [],
      run := Dict.set (Dict.set rk "outputfiles_basename".toList (.text (joinPath (a.outdir.getD "tmpdir".toList) "out"))) "resume".toList (.flag a.proceed) }
  | s =>
    let there := (checkpoint a).any (fsExists w.fs)
    let run := withPath (Dict.set rk "resume".toList (.flag a.proceed)) "checkpoint_file" (checkpoint a)
    if a.proceed && there then { sampler := s, restore := checkpoint a, init := [], run := run }
    else { sampler := s, restore := none, init := sk, run := if a.proceed && (checkpoint a).isSome then Dict.set run "resume".toList (.flag false) else run }

/-- No dictionary of the caller's is one that radvel adds keywords to. -/
def NsArgs.Safe (a : NsArgs) (s : NsSampler) (w : NsWorld) : Prop :=
  content w (a.target s) = [] ∧ (s = .nautilus → content w a.run_kwargs = [] ∨ Dict.has (content w a.run_kwargs) "verbose".toList = true)

/-- The path or something below it. -/
def Below (dir p : Text) : Prop := p = dir ∨ (dir ++ ['/']) <+: p

end Radvel
