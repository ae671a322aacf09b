import Verif.Model.Cli

/-!
# What `radvel mcmc` hands to the sampler: /repo/radvel/driver.py 165-209 and the signature of `mcmc`, /repo/radvel/mcmc.py 189-191
-/

namespace Radvel

/-- `args.save or args.proceed` and the like: whether a value of a flag is true. Models /repo/radvel/driver.py 177. -/
def ArgVal.isTrue : ArgVal → Bool
  | .bool b => b
  | _ => false

/-- `os.path.join(a, b)` for a relative `b`. Used for /repo/radvel/driver.py 178. -/
def osJoin (a b : Text) : Text := if a = [] then b else if a.getLast? = some '/' then a ++ b else a ++ "/".toList ++ b

/-- `backend_loc`, /repo/radvel/driver.py 172-180. -/
def backendLoc (d : Dict Text ArgVal) : Except PyErr ArgVal := do
  let f ← attr d "setupfn"
  let out ← attr d "outputdir"
  match f, out with
  | .str f, .str out =>
    let save ← attr d "save"
    let proceed ← attr d "proceed"
    return if save.isTrue || proceed.isTrue then .str (osJoin out (confBase f ++ "_rawchain.h5".toList)) else .none
  | _, _ => .error .typeError

/-- The keywords of the call of `radvel.mcmc` and the attributes of `args` they get, /repo/radvel/driver.py 201-205. -/
def mcmcKeywords : List (String × String) :=
  [("nwalkers", "nwalkers"), ("nrun", "nsteps"), ("ensembles", "ensembles"), ("minAfactor", "minAfactor"), ("maxArchange", "maxArchange"), ("burnAfactor", "burnAfactor"), ("burnGR", "burnGR"), ("maxGR", "maxGR"),
   ("minTz", "minTz"), ("minsteps", "minsteps"), ("minpercent", "minpercent"), ("thin", "thin"), ("serial", "serial"), ("save", "save"), ("proceed", "proceed"), ("headless", "headless")]

/-- One keyword. Models /repo/radvel/driver.py 201-205. -/
def keywordOf (d : Dict Text ArgVal) (x : String × String) : Except PyErr (Text × ArgVal) :=
  match attr d x.2 with
  | .ok v => .ok (x.1.toList, v)
  | .error e => .error e

/-- The call of `radvel.mcmc` by `driver.mcmc`, /repo/radvel/driver.py 201-205: its keywords. Reading the status file and loading the posterior (182-191) are left out, see Model/Pipeline. -/
def mcmcCall (d : Dict Text ArgVal) : Except PyErr (Dict Text ArgVal) := do
  let loc ← backendLoc d
  let l ← mcmcKeywords.mapM (keywordOf d)
  return l ++ [("savename".toList, loc), ("proceedname".toList, loc)]

/-- The defaults of `mcmc`, /repo/radvel/mcmc.py 189-191. -/
def libraryDefaults : List (String × ArgVal) :=
  [("nwalkers", .int 50), ("nrun", .int 10000), ("ensembles", .int 8), ("checkinterval", .int 50), ("minAfactor", .int 40), ("maxArchange", decimal 3 (-2)), ("burnAfactor", .int 25), ("burnGR", decimal 103 (-2)),
   ("maxGR", decimal 101 (-2)), ("minTz", .int 1000), ("minsteps", .int 1000), ("minpercent", .int 5), ("thin", .int 1), ("serial", .bool false), ("save", .bool false), ("savename", .none), ("proceed", .bool false),
   ("proceedname", .none), ("headless", .bool false)]

/-- The defaults in the help texts of `radvel mcmc`, where there are any, /repo/radvel/cli.py 77-118: the numbers in brackets. -/
def helpDefaults : List (String × ArgVal) :=
  [("--nsteps", .int 10000), ("--nwalkers", .int 50), ("--nensembles", .int 8), ("--minAfactor", .int 50), ("--maxArchange", decimal 7 (-2)), ("--maxGR", decimal 101 (-2)), ("--burnGR", decimal 103 (-2)),
   ("--burnAfactor", .int 25), ("--minTz", .int 1000), ("--minsteps", .int 1000), ("--minpercent", .int 5), ("--thin", .int 10), ("--serial", .bool false), ("--save", .bool false)]

end Radvel
