import Verif.Model.GP
import Verif.Model.Basis
import Verif.Model.Draw

/-!
# `radvel/utils.py` 50-143: from a setup file to a posterior

The setup file itself is a Python module; what it defines is the record `SetupFile`. The conversion of `logjit` keys is in `Model/Draw`.
-/

namespace Radvel

/-- A row of `P.data`: columns `tel`, `time`, `mnvel`, `errvel` and any others (`dec`). Simplification: `tel` is always given (rows without it are ignored by `groupby`).
Models /repo/radvel/utils.py 101, 128-130. -/
structure DataRow where
  tel : String
  t : ℝ
  y : ℝ
  err : ℝ
  dec : List Char → Fl := fun _ => .nan

/-- The observation that a row contributes. Models /repo/radvel/utils.py 128-130. -/
def DataRow.obs (r : DataRow) : Obs := { t := r.t, y := r.y, err := r.err, dec := r.dec }

/-- An entry of `P.kernel_name`: a key of `gp.KERNELS` (/repo/radvel/gp.py 10-15) or anything else. -/
inductive KernelName | matrix (kind : KernelKind) | celerite | unknown
  deriving DecidableEq, Repr

/-- What a setup file defines, /repo/radvel/utils.py 64-140. `none` for an attribute that is not defined; `columns` are the further columns of `P.data`. Simplification:
`fitting_basis` is the name of one of the known bases. -/
structure SetupFile where
  params : Params ℝ
  fittingBasis : BasisName
  instnames : List String
  data : List DataRow
  columns : List String := []
  decorrVars : Option (List String) := none
  hnames : Option (Dict String (List Key)) := none
  kernelName : Option (Dict String KernelName) := none

/-- The likelihood of one instrument: `RVLikelihood`, `GPLikelihood` with its kernel, or `CeleriteLikelihood`. Models /repo/radvel/utils.py 114, 120, 124. -/
inductive InstLike
  | rv (L : RVLike)
  | gp (G : GPLike) (k : Kernel)
  | celerite (L : RVLike) (hnames : List Key) (c : CelLike)

/-- `P.decorr_vars` if the option is given, /repo/radvel/utils.py 71-78. -/
def SetupFile.decorr (P : SetupFile) (option : Bool) : Except PyErr (List String) :=
  if option then
    match P.decorrVars with
    | some vs => .ok vs
    | none => .error .exception
  else .ok []

/-- `telgrps[inst]`: the rows of one instrument, in the order of the file, /repo/radvel/utils.py 101, 128-130. -/
def SetupFile.rowsOf (P : SetupFile) (inst : String) : List DataRow := P.data.filter (fun r => r.tel == inst)

/-- Slots of the celerite kernel, /repo/radvel/gp.py 396-404. -/
def celeriteSlots : List (List Char) := ["gp_B".toList, "gp_C".toList, "gp_L".toList, "gp_Prot".toList]

/-- `CeleriteKernel.__init__`, /repo/radvel/gp.py 393-420: the four slots must be found (otherwise fewer than four entries). -/
def celeriteKernelOk (hparams : List Key) : Bool := celeriteSlots.all (fun slot => hparams.any (fun k => slot.isPrefixOf k.render))

/-- `GPLikelihood(...)` and `CeleriteLikelihood(...)` in the state `s`: /repo/radvel/utils.py 127-133 with likelihood.py 431-451 and 577-589. The decorrelation arguments
disappear in `**kwargs`. -/
noncomputable def newGP (s : VState ℝ) (obs : List Obs) (hnames : List Key) (suffix : String) : KernelName → Except PyErr (VState ℝ × InstLike)
  | .matrix kind =>
    match GPLike.new s obs hnames suffix kind with
    | .error e => .error e
    | .ok (G, g) => .ok (g.st, .gp G g.kernel)
  | .unknown =>
    match RVLike.new s obs suffix [] [] with
    | .error e => .error e
    | .ok _ => .error .assertionError
  | .celerite =>
    match RVLike.new s obs suffix [] [] with
    | .error e => .error e
    | .ok (s', L) =>
      match hnames.mapM (lookupPar s') with
      | .error e => .error e
      | .ok _ => if celeriteKernelOk hnames then .ok (s', .celerite L hnames (CelLike.new obs)) else .error .assertionError

/-- `decorr_vectors[d] = P.data.iloc[...][d].values` for every `d`, /repo/radvel/utils.py 107-110: a missing column raises. -/
def SetupFile.checkColumns (P : SetupFile) : List String → Except PyErr Unit
  | [] => .ok ()
  | d :: t => if d ∈ P.columns then P.checkColumns t else .error .keyError

/-- The choice of the kernel, /repo/radvel/utils.py 112-121: without `P.kernel_name` it is `QuasiPer`; a missing entry is a `KeyError`, which is not caught. -/
def SetupFile.kernelOf (P : SetupFile) (inst : String) : Except PyErr KernelName :=
  match P.kernelName with
  | none => .ok (.matrix .quasiPer)
  | some d =>
    match d.get? inst with
    | some k => .ok k
    | none => .error .keyError

/-- The likelihood of one instrument, /repo/radvel/utils.py 112-133. `P.hnames[inst]`: only `AttributeError` (no `hnames` at all) is caught. -/
noncomputable def SetupFile.newLike (P : SetupFile) (vars : List String) (s : VState ℝ) (inst : String) : Except PyErr (VState ℝ × InstLike) :=
  let obs := (P.rowsOf inst).map DataRow.obs
  match P.hnames with
  | none =>
    match RVLike.new s obs ("_" ++ inst) vars (vars.map String.toList) with
    | .error e => .error e
    | .ok (s', L) => .ok (s', .rv L)
  | some d =>
    match d.get? inst with
    | none => .error .keyError
    | some hn =>
      match P.kernelOf inst with
      | .error e => .error e
      | .ok kn => newGP s obs hn ("_" ++ inst) kn

/-- `likes[inst].params[key] = iparams[key]`, /repo/radvel/utils.py 134-135. -/
def resetPar (iparams : Params ℝ) (s : VState ℝ) (key : Key) : Except PyErr (VState ℝ) :=
  match iparams.items.get? key with
  | none => .error .keyError
  | some q => .ok { s with params := s.params.setItem key q }

/-- One turn of the loop over `P.instnames`, /repo/radvel/utils.py 103-135. -/
noncomputable def SetupFile.addInst (P : SetupFile) (vars : List String) (iparams : Params ℝ) (acc : VState ℝ × Dict String InstLike) (inst : String) :
    Except PyErr (VState ℝ × Dict String InstLike) :=
  if P.rowsOf inst = [] then .error .assertionError
  else
    match P.checkColumns vars with
    | .error e => .error e
    | .ok _ =>
      match P.newLike vars acc.1 inst with
      | .error e => .error e
      | .ok (s, L) =>
        match resetPar iparams s (.inst .gamma ("_" ++ inst)) with
        | .error e => .error e
        | .ok s =>
          match resetPar iparams s (.inst .jit ("_" ++ inst)) with
          | .error e => .error e
          | .ok s => .ok (s, acc.2.set inst L)

/-- The attributes that `CompositeLikelihood.__init__` collects, /repo/radvel/likelihood.py 246-267: of a celerite likelihood, the sorted data. -/
def InstLike.member (inst : String) : InstLike → Member
  | .rv L => { x := L.obs.map Obs.t, y := L.obs.map Obs.y, yerr := L.obs.map Obs.err, telvec := List.replicate L.obs.length inst,
               gammaParam := .inst .gamma L.suffix, hnames := none }
  | .gp G _ => { x := G.rv.obs.map Obs.t, y := G.rv.obs.map Obs.y, yerr := G.rv.obs.map Obs.err, telvec := List.replicate G.rv.obs.length inst,
                 gammaParam := .inst .gamma G.rv.suffix, hnames := some G.hnames }
  | .celerite L hn c => { x := c.obs.map Obs.t, y := c.obs.map Obs.y, yerr := c.obs.map Obs.err, telvec := List.replicate L.obs.length inst,
                          gammaParam := .inst .gamma L.suffix, hnames := some hn }

/-- What `initialize_posterior` makes: the shared state, the likelihoods and the arrays of the composite. Models /repo/radvel/utils.py 137-143. -/
structure SetupPost where
  st : VState ℝ
  likes : Dict String InstLike
  comp : CompositeData

/-- `initialize_posterior`, /repo/radvel/utils.py 50-143, on the module `P`. `dflt` is the value of `Parameter()`. -/
noncomputable def SetupFile.initialize (dflt : ℝ) (P : SetupFile) (option : Bool) : Except PyErr SetupPost :=
  if P.params.basis ≠ P.fittingBasis then .error .assertionError
  else
    match P.decorr option with
    | .error e => .error e
    | .ok vars =>
      match convertLogjit P.params.items.keys P.params.items with
      | .error e => .error e
      | .ok items =>
        let params := { P.params with items := items }
        match VState.init params with
        | .error e => .error e
        | .ok s =>
          match P.instnames.foldlM (P.addInst vars (copyParams dflt params)) (s, []) with
          | .error e => .error e
          | .ok (s, likes) =>
            match compositeInit s (likes.map (fun x => x.2.member x.1)) with
            | .error e => .error e
            | .ok comp => .ok { st := s, likes := likes, comp := comp }

end Radvel
