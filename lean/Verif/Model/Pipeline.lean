import Verif.Model.Driver

/-!
Model of the commands of /repo/radvel/driver.py as steps on the status file and the output files.

The status file is the text of Model/Status; output files hold only where their content comes from: which stage made it and in which run. Runs are numbered by a clock, so that results of different runs are
different. Computations (setting up the posterior, fitting, sampling, plotting, rendering) may succeed or raise; an oracle decides. All commands of a pipeline have the same setup file, output directory and working
directory; `pre` is the common start of the paths, `os.path.relpath(os.path.join(args.outputdir, conf_base))`. Left out: printing, the numbers themselves, `args.plotkw`, the `decorr` and `gp` flags, file-system errors
other than missing files (they are part of the oracle), processes that die in the middle of a save (C80).
-/

namespace Radvel

/-- The stages that make posteriors and samples. Models /repo/radvel/driver.py 139-250, 343-395. -/
inductive Stage
  | fit
  | mcmc
  | ns
deriving DecidableEq

/-- Where a result comes from. Models /repo/radvel/driver.py 156, 220-232, 383-386. -/
structure Source where
  stage : Stage
  run : Nat
deriving DecidableEq

/-- What a file holds: a posterior with its `derived` attribute, samples, ..., the RV figure with the sources of the orbits drawn and of the masses written in the phase panels. Models /repo/radvel/driver.py 156, 216-232, 379-386, 671-679. -/
inductive Content
  | post (src : Source) (derived : Option Source)
  | chains (src : Source)
  | autocorr (src : Source)
  | derivedChains (src : Source)
  | derivedTable (src : Option Source)
  | rvFigure (orbits : Source) (masses : Option Source)
  | other
deriving DecidableEq

/-- Plot types of the command line, /repo/radvel/cli.py 52. -/
inductive PlotType
  | rv
  | auto
  | corner
  | trend
  | derived
deriving DecidableEq

/-- Table types of the command line, /repo/radvel/cli.py 202. -/
inductive TableType
  | params
  | priors
  | rv
  | icCompare
  | derived
  | crit
deriving DecidableEq

/-- What has been completed; not part of the program. Models /repo/radvel/driver.py 136, 160, 248, 395, 459, 537, 684. -/
inductive Event
  | fit (run : Nat)
  | mcmc (run : Nat)
  | ns (run : Nat)
  | ic
  | derive (src : Source)
  | plot (t : PlotType)
  | table (t : TableType)
deriving DecidableEq

/-- The status file, the output files, the clock, and what has been completed (newest first). Models /repo/radvel/driver.py 160-162, 760-798. -/
structure World where
  stat : Option Text
  files : Dict Text Content
  clock : Nat
  log : List Event

/-- A step of a command: it may change the world and then raise. Models /repo/radvel/driver.py 31-757. -/
def Run (α : Type) : Type := World → Except PyErr α × World

/-- Sequencing: an exception ends the command and what was done stays done. Models /repo/radvel/driver.py 31-757. -/
instance : Monad Run where
  pure a := fun w => (.ok a, w)
  bind m f := fun w =>
    match m w with
    | (.ok a, w') => f a w'
    | (.error e, w') => (.error e, w')

/-- Something that does not change the world. Used for /repo/radvel/driver.py 31-757. -/
def lift {α : Type} (x : Except PyErr α) : Run α := fun w => (x, w)

/-- The computations that may raise. Used for /repo/radvel/driver.py 31-757. -/
inductive Work
  | setup
  | compute
  | write
  | render
deriving DecidableEq

/-- Which computations raise, and what. Used for /repo/radvel/driver.py 31-757. -/
abbrev Oracle := Work → Option PyErr

/-- A computation. Used for /repo/radvel/driver.py 31-757. -/
def work (o : Oracle) (k : Work) : Run Unit := fun w =>
  match o k with
  | none => (.ok (), w)
  | some e => (.error e, w)

/-- The number of a new run. Used for /repo/radvel/driver.py 152, 201, 364. -/
def newRun : Run Nat := fun w => (.ok w.clock, { w with clock := w.clock + 1 })

/-- `load_status(statfile)`. Models /repo/radvel/driver.py 785-798. -/
def loadR : Run Config := fun w => (loadStatus w.stat, w)

/-- `save_status(statfile, section, savestate)`, after which the step is complete. Models /repo/radvel/driver.py 760-782. -/
def complete (sec : Text) (vars : List (Text × Text)) (ev : Event) : Run Unit := fun w =>
  match saveStatus w.stat sec vars with
  | .error e => (.error e, w)
  | .ok t => (.ok (), { w with stat := some t, log := ev :: w.log })

/-- Writing a file. Used for /repo/radvel/driver.py 156, 216-232, 379-386, 533-534, 671-679. -/
def writeR (path : Text) (c : Content) : Run Unit := fun w => (.ok (), { w with files := Dict.set w.files path c })

/-- `radvel.posterior.load(path)`. Models /repo/radvel/driver.py 52, 189, 418, 492, 588, 724. -/
def readPost (path : Text) : Run (Source × Option Source) := fun w =>
  match w.files.get? path with
  | none => (.error .fileNotFoundError, w)
  | some (.post s d) => (.ok (s, d), w)
  | some _ => (.error .exception, w)

/-- `pd.read_csv(path)` for samples. Models /repo/radvel/driver.py 102, 491, 589, 723. -/
def readChains (path : Text) : Run Source := fun w =>
  match w.files.get? path with
  | none => (.error .fileNotFoundError, w)
  | some (.chains s) => (.ok s, w)
  | some _ => (.error .exception, w)

/-- `pd.read_csv(path)` for the history of autocorrelation times. Models /repo/radvel/driver.py 100. -/
def readAutocorr (path : Text) : Run Source := fun w =>
  match w.files.get? path with
  | none => (.error .fileNotFoundError, w)
  | some (.autocorr s) => (.ok s, w)
  | some _ => (.error .exception, w)

/-- `pd.read_csv(path)` for derived parameters. Models /repo/radvel/driver.py 127, 496, 727. -/
def readDerived (path : Text) : Run Source := fun w =>
  match w.files.get? path with
  | none => (.error .fileNotFoundError, w)
  | some (.derivedChains s) => (.ok s, w)
  | some _ => (.error .exception, w)

/-- Ignoring a step's result. Used for /repo/radvel/driver.py 31-757. -/
def void {α : Type} (m : Run α) : Run Unit := do
  let _ ← m
  pure ()

/-- `assert condition`. Used for /repo/radvel/driver.py 50, 96-99, 123, 416, 510, 525. -/
def assertR (b : Bool) : Run Unit := if b then lift (.ok ()) else lift (.error .assertionError)

/-- A path. Models /repo/radvel/driver.py 61-63, 105, 154-155, 215-231, 377-385, 530-532, 670-678. -/
def pathOf (pre : Text) (suffix : String) : Text := pre ++ suffix.toList

/-- The text `'True'`. Models /repo/radvel/driver.py 158, 234, 388, 615. -/
def trueText : Text := "True".toList

/-- `fit`, /repo/radvel/driver.py 139-162. -/
def fitCmd (pre : Text) (o : Oracle) : Run Unit := do
  work o .setup
  work o .compute
  let n ← newRun
  work o .write
  writeR (pathOf pre "_post_obj.pkl") (.post ⟨.fit, n⟩ none)
  complete "fit".toList [("run".toList, trueText), ("postfile".toList, pathOf pre "_post_obj.pkl")] (.fit n)

/-- What `mcmc` writes to the status besides paths: numbers, as texts. Models /repo/radvel/driver.py 239-247. -/
structure McmcNumbers where
  nwalkers : Text
  nensembles : Text
  maxsteps : Text
  nsteps : Text
  nburn : Text
  minafactor : Text
  maxarchange : Text
  mintz : Text
  maxgr : Text

/-- The options that `mcmc` saves, /repo/radvel/driver.py 234-247. -/
def mcmcVars (pre : Text) (num : McmcNumbers) : List (Text × Text) :=
  [("run".toList, trueText), ("postfile".toList, pathOf pre "_post_obj.pkl"), ("chainfile".toList, pathOf pre "_chains.csv.bz2"), ("autocorrfile".toList, pathOf pre "_autocorr.csv"),
    ("summaryfile".toList, pathOf pre "_post_summary.csv"), ("nwalkers".toList, num.nwalkers), ("nensembles".toList, num.nensembles), ("maxsteps".toList, num.maxsteps), ("nsteps".toList, num.nsteps),
    ("nburn".toList, num.nburn), ("minafactor".toList, num.minafactor), ("maxarchange".toList, num.maxarchange), ("minTz".toList, num.mintz), ("maxGR".toList, num.maxgr)]

/-- Loading the starting positions, /repo/radvel/driver.py 186-189, with the attributes of the posterior. -/
def startFrom (status : Config) (fitted : Bool) : Run (Option (Source × Option Source)) :=
  if fitted then do
    let path ← lift (getOption status "fit".toList "postfile".toList)
    let p ← readPost path
    pure (some p)
  else pure none

/-- `mcmc`, /repo/radvel/driver.py 165-250. The posterior that is saved is the one that was loaded, with its attribute `derived`, if it has one. Returns the posterior that sampling started from, if it was loaded. -/
def mcmcCmd (pre : Text) (num : McmcNumbers) (o : Oracle) : Run (Option Source) := do
  let status ← loadR
  work o .setup
  let fitted ← lift (getBoolean status "fit".toList "run".toList)
  let start ← startFrom status fitted
  work o .compute
  let n ← newRun
  writeR (pathOf pre "_post_summary.csv") .other
  writeR (pathOf pre "_post_obj.pkl") (.post ⟨.mcmc, n⟩ (start.bind Prod.snd))
  work o .write
  writeR (pathOf pre "_chains.csv.bz2") (.chains ⟨.mcmc, n⟩)
  writeR (pathOf pre "_autocorr.csv") (.autocorr ⟨.mcmc, n⟩)
  complete "mcmc".toList (mcmcVars pre num) (.mcmc n)
  pure (start.map Prod.fst)

/-- The options that `nested_sampling` saves, /repo/radvel/driver.py 388-394: its own and then the keywords (given and added) of the sampler. -/
def nsVars (pre : Text) (kwargs : List (Text × Text)) : List (Text × Text) :=
  [("run".toList, trueText), ("postfile".toList, pathOf pre "_post_obj_ns.pkl"), ("chainfile".toList, pathOf pre "_chains_ns.csv.bz2"), ("ns_outdir".toList, pathOf pre "_ns"),
    ("summaryfile".toList, pathOf pre "_post_summary_ns.csv")] ++ kwargs

/-- `nested_sampling`, /repo/radvel/driver.py 343-395. -/
def nsCmd (pre : Text) (kwargs : List (Text × Text)) (o : Oracle) : Run Unit := do
  let _status ← loadR
  work o .setup
  work o .compute
  let n ← newRun
  writeR (pathOf pre "_post_summary_ns.csv") .other
  writeR (pathOf pre "_post_obj_ns.pkl") (.post ⟨.ns, n⟩ none)
  work o .write
  writeR (pathOf pre "_chains_ns.csv.bz2") (.chains ⟨.ns, n⟩)
  complete "ns".toList (nsVars pre kwargs) (.ns n)

/-- `ic_compare`, /repo/radvel/driver.py 398-459; `ic` is the text of the list of statistics. Returns the posterior used. -/
def icCmd (ic : Text) (o : Oracle) : Run Source := do
  let status ← loadR
  work o .setup
  let fitted ← lift (getBoolean status "fit".toList "run".toList)
  assertR fitted
  let path ← lift (getOption status "fit".toList "postfile".toList)
  let p ← readPost path
  work o .compute
  complete "ic_compare".toList [("ic".toList, ic)] .ic
  pure p.1

/-- The name of a plot's file, /repo/radvel/driver.py 60-130. -/
def plotSuffix : PlotType → String
  | .rv => "_rv_multipanel.pdf"
  | .auto => "_auto.pdf"
  | .corner => "_corner.pdf"
  | .trend => "_trends.pdf"
  | .derived => "_corner_derived_pars.pdf"

/-- The option a plot is saved under, `'{}_plot'.format(ptype)`. Models /repo/radvel/driver.py 135. -/
def plotOption : PlotType → Text
  | .rv => "rv_plot".toList
  | .auto => "auto_plot".toList
  | .corner => "corner_plot".toList
  | .trend => "trend_plot".toList
  | .derived => "derived_plot".toList

/-- `config.getint(section, option)`. Used for /repo/radvel/driver.py 115-116. -/
def getInt (c : Config) (s k : Text) : Except PyErr Int :=
  match getOption c s k with
  | .error e => .error e
  | .ok v =>
    match pyInt v with
    | none => .error .valueError
    | some n => .ok n

/-- The checks before reading the samples for a plot, /repo/radvel/driver.py 95-100. -/
def checkSampler (status : Config) (sampler : Text) (t : PlotType) : Run Unit :=
  if t = .corner then do
    let ran ← lift (getBoolean status sampler "run".toList)
    assertR ran
  else do
    assertR (sampler = "mcmc".toList)
    let path ← lift (getOption status sampler "autocorrfile".toList)
    void (readAutocorr path)

/-- The samples read for a corner, auto or trend plot, /repo/radvel/driver.py 93-102. -/
def plotChains (status : Config) (request : Text) (t : PlotType) : Run Source := do
  let sampler ← lift (pickSampler request status)
  checkSampler status sampler t
  let path ← lift (getOption status sampler "chainfile".toList)
  readChains path

/-- The numbers read for a trend plot, /repo/radvel/driver.py 115-116. -/
def trendNumbers (status : Config) : Run Unit := do
  let _ ← lift (getInt status "mcmc".toList "nwalkers".toList)
  void (lift (getInt status "mcmc".toList "nensembles".toList))

/-- What is read for a plot of derived parameters, /repo/radvel/driver.py 122-127. -/
def plotDerived (status : Config) : Run Unit := do
  assertR (status.has "derive".toList)
  let path ← lift (getOption status "derive".toList "chainfile".toList)
  void (readDerived path)

/-- `status.has_option(section, option)`. Used for /repo/radvel/driver.py 510, 525. -/
def hasOption (c : Config) (s k : Text) : Bool :=
  match c.get? s with
  | none => false
  | some d => d.has (lower k)

/-- Whether the phase panels show masses, /repo/radvel/plot/orbit_plots.py 369-371; `d` is the attribute `derived` of the posterior. Without the options in the status they need uncertainties of the derived parameters in
`post.uparams`, which no command writes (/repo/radvel/plot/orbit_plots.py 408-414). -/
def showsMasses (status : Config) (d : Option Source) : Bool := d.isSome && hasOption status "derive".toList "chainfile".toList

/-- What is read for the RV figure with at least one planet, /repo/radvel/plot/orbit_plots.py 369-376. -/
def plotMasses (status : Config) (d : Option Source) : Run Unit :=
  if showsMasses status d then do
    let path ← lift (getOption status "derive".toList "chainfile".toList)
    void (readDerived path)
  else pure ()

/-- What is read for one plot, /repo/radvel/driver.py 93-127; `d` is the attribute `derived` of the posterior. -/
def plotInputs (status : Config) (request : Text) (d : Option Source) : PlotType → Run Unit
  | .rv => plotMasses status d
  | .derived => plotDerived status
  | .trend => do
    let _ ← plotChains status request .trend
    trendNumbers status
  | t => void (plotChains status request t)

/-- What a plot shows: for the RV figure, the posterior and the masses in it. Models /repo/radvel/driver.py 57-85, /repo/radvel/plot/orbit_plots.py 341-405. -/
def plotContent (status : Config) (post : Source × Option Source) : PlotType → Content
  | .rv => .rvFigure post.1 (if showsMasses status post.2 then post.2 else none)
  | _ => .other

/-- One turn of the loop of `plots`, /repo/radvel/driver.py 54-136. -/
def plotOne (pre : Text) (status : Config) (request : Text) (post : Source × Option Source) (o : Oracle) (t : PlotType) : Run Unit := do
  plotInputs status request post.2 t
  work o .render
  writeR (pathOf pre (plotSuffix t)) (plotContent status post t)
  complete "plot".toList [(plotOption t, pathOf pre (plotSuffix t))] (.plot t)

/-- The loop of `plots`. Models /repo/radvel/driver.py 54-136. -/
def plotLoop (pre : Text) (status : Config) (request : Text) (post : Source × Option Source) (o : Oracle) : List PlotType → Run Unit
  | [] => pure ()
  | t :: ts => do
    plotOne pre status request post o t
    plotLoop pre status request post o ts

/-- `plots`, /repo/radvel/driver.py 31-136. -/
def plotsCmd (pre : Text) (types : List PlotType) (request : Text) (o : Oracle) : Run Unit := do
  let status ← loadR
  work o .setup
  let fitted ← lift (getBoolean status "fit".toList "run".toList)
  assertR fitted
  let path ← lift (getOption status "fit".toList "postfile".toList)
  let post ← readPost path
  plotLoop pre status request post o types

/-- What tables, derived parameters and reports are made from. Models /repo/radvel/driver.py 477-500, 584-589, 705-731. -/
structure Used where
  sampler : Text
  chains : Source
  post : Source
  derived : Option Source
deriving DecidableEq

/-- The convergence numbers read for MCMC, /repo/radvel/driver.py 478-482, 709-713. -/
def readCriteria (status : Config) (sampler : Text) : Run Unit :=
  if sampler = "mcmc".toList then do
    let _ ← lift (getOption status "mcmc".toList "minafactor".toList)
    let _ ← lift (getOption status "mcmc".toList "maxarchange".toList)
    let _ ← lift (getOption status "mcmc".toList "maxgr".toList)
    void (lift (getOption status "mcmc".toList "mintz".toList))
  else pure ()

/-- The derived parameters joined to the samples, if there are any, /repo/radvel/driver.py 495-500, 726-731. -/
def joinDerived (status : Config) : Run (Option Source) :=
  if status.has "derive".toList then do
    let ran ← lift (getBoolean status "derive".toList "run".toList)
    if ran then do
      let dpath ← lift (getOption status "derive".toList "chainfile".toList)
      let d ← readDerived dpath
      pure (some d)
    else pure none
  else pure none

/-- The samples and the posterior read by `tables` and `report`, /repo/radvel/driver.py 491-500, 723-731. -/
def readResults (status : Config) (sampler : Text) : Run Used := do
  let cpath ← lift (getOption status sampler "chainfile".toList)
  let chains ← readChains cpath
  let ppath ← lift (getOption status sampler "postfile".toList)
  let post ← readPost ppath
  let d ← joinDerived status
  pure { sampler := sampler, chains := chains, post := post.1, derived := d }

/-- `tab_params` and `tab_derived` need `post.maxparams`, which only the samplers set, /repo/radvel/report.py 211, 434, /repo/radvel/driver.py 287. -/
def needMaxparams (u : Used) : Run Unit := if u.post.stage = .fit then lift (.error .attributeError) else pure ()

/-- The name of a table's file. Models /repo/radvel/driver.py 530-532. -/
def tableSuffix : TableType → String
  | .params => "_params.tex"
  | .priors => "_priors.tex"
  | .rv => "_rv.tex"
  | .icCompare => "_ic_compare.tex"
  | .derived => "_derived.tex"
  | .crit => "_crit.tex"

/-- The option a table is saved under. Models /repo/radvel/driver.py 536. -/
def tableOption : TableType → Text
  | .params => "params_tex".toList
  | .priors => "priors_tex".toList
  | .rv => "rv_tex".toList
  | .icCompare => "ic_compare_tex".toList
  | .derived => "derived_tex".toList
  | .crit => "crit_tex".toList

/-- The text of one table, /repo/radvel/driver.py 509-528, and the flag `report.derived` of the report used from then on: the comparison table makes a new report, without it. -/
def tableText (status : Config) (o : Oracle) (u : Used) (flag : Bool) (t : TableType) : Run (Content × Bool) := do
  match t with
  | .icCompare => do
    assertR (hasOption status "ic_compare".toList "ic".toList)
    work o .render
    pure (.other, false)
  | .params => do
    needMaxparams u
    work o .render
    pure (.other, flag)
  | .derived => do
    assertR (hasOption status "derive".toList "run".toList)
    if flag then do
      needMaxparams u
      work o .render
      pure (.derivedTable u.derived, flag)
    else pure (.derivedTable none, flag)
  | _ => do
    work o .render
    pure (.other, flag)

/-- The loop of `tables`, /repo/radvel/driver.py 506-537. -/
def tableLoop_ (pre : Text) (status : Config) (o : Oracle) (u : Used) (flag : Bool) : List TableType → Run Unit
  | [] => pure ()
  | t :: ts => do
    let x ← tableText status o u flag t
    writeR (pathOf pre (tableSuffix t)) x.1
    complete "table".toList [(tableOption t, pathOf pre (tableSuffix t))] (.table t)
    tableLoop_ pre status o u x.2 ts

/-- `tables`, /repo/radvel/driver.py 462-537. -/
def tablesCmd (pre : Text) (types : List TableType) (request : Text) (o : Oracle) : Run Used := do
  let status ← loadR
  work o .setup
  let sampler ← lift (pickSampler request status)
  readCriteria status sampler
  let u ← readResults status sampler
  tableLoop_ pre status o u u.derived.isSome types
  pure u

/-- `derive`, /repo/radvel/driver.py 566-684; `stellar` says whether the setup file has stellar parameters. Returns what was used, nothing if there are no stellar parameters. -/
def deriveCmd (pre : Text) (request : Text) (stellar : Bool) (o : Oracle) : Run (Option Used) := do
  let status ← loadR
  let sampler ← lift (pickSampler request status)
  work o .setup
  let ppath ← lift (getOption status sampler "postfile".toList)
  let post ← readPost ppath
  let cpath ← lift (getOption status sampler "chainfile".toList)
  let chains ← readChains cpath
  if !stellar then pure none
  else do
    work o .compute
    writeR (pathOf pre "_derived_quantiles.csv") .other
    writeR ppath (.post post.1 (some chains))
    work o .write
    writeR (pathOf pre "_derived.csv.bz2") (.derivedChains chains)
    complete "derive".toList [("run".toList, trueText), ("quantfile".toList, pathOf pre "_derived_quantiles.csv"), ("chainfile".toList, pathOf pre "_derived.csv.bz2")] (.derive chains)
    pure (some { sampler := sampler, chains := chains, post := post.1, derived := some chains })

/-- Raising an error unless a condition holds. Used for /repo/radvel/driver.py 702-703, 749. -/
def checkThat (b : Bool) (e : PyErr) : Run Unit := if b then pure () else lift (.error e)

/-- `report`, /repo/radvel/driver.py 687-757. The text of the comparison is evaluated if there is one (part of the oracle's rendering). -/
def reportCmd (request : Text) (o : Oracle) : Run Used := do
  let status ← loadR
  checkThat (!(status.has "ic_compare".toList) || hasOption status "ic_compare".toList "ic".toList) .keyError
  let sampler ← lift (pickSampler request status)
  work o .setup
  readCriteria status sampler
  let u ← readResults status sampler
  checkThat (status.has "plot".toList) .noSectionError
  needMaxparams u
  work o .render
  pure u

/-- The commands of /repo/radvel/cli.py. -/
inductive Command
  | fit
  | mcmc (num : McmcNumbers)
  | ns (kwargs : List (Text × Text))
  | ic (text : Text)
  | plots (types : List PlotType) (request : Text)
  | tables (types : List TableType) (request : Text)
  | derive (request : Text) (stellar : Bool)
  | report (request : Text)

/-- Running a command. Models /repo/radvel/driver.py 31-757. -/
def runCommand (pre : Text) (o : Oracle) : Command → Run Unit
  | .fit => fitCmd pre o
  | .mcmc num => void (mcmcCmd pre num o)
  | .ns kwargs => nsCmd pre kwargs o
  | .ic text => void (icCmd text o)
  | .plots types request => plotsCmd pre types request o
  | .tables types request => void (tablesCmd pre types request o)
  | .derive request stellar => void (deriveCmd pre request stellar o)
  | .report request => void (reportCmd request o)

end Radvel
