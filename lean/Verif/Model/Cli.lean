import Verif.Model.Pipeline
import Verif.Model.ModelComp
import Verif.Model.WorkDir

/-!
# `radvel/cli.py`: the command line

The tables of options are those of `main`; the parser is `argparse`'s (of Python 3.11) for options of these kinds, with abbreviations (`--out`), `--name=value`, `-dvalue`, bundled letters and values
that begin with `-`. Printing is left out. `type=eval` (55) keeps the text. The end of the program in the parser (`SystemExit`), be it an error, the help or the version, is `none`.
-/

namespace Radvel

/-- A value in the namespace. `code` is what `eval` makes of a text. Models /repo/radvel/cli.py 25-228. -/
inductive ArgVal
  | none
  | bool (b : Bool)
  | int (n : Int)
  | float (x : FloatText)
  | str (t : Text)
  | strs (l : List Text)
  | code (t : Text)
deriving DecidableEq

/-- The argument `type` of `add_argument`. Models /repo/radvel/cli.py 25-226. -/
inductive Conv | str | int | float | bool | eval
deriving DecidableEq

/-- The argument `action`, with `nargs`: `one` is one value, `many` is `nargs='+'` (with `type=str`), `flag b` is `store_true` or `store_false`. Models /repo/radvel/cli.py 25-226. -/
inductive Action
  | one (c : Conv)
  | many
  | flag (b : Bool)
deriving DecidableEq

/-- A call of `add_argument`; `choices = []` allows everything. Models /repo/radvel/cli.py 25-226. -/
structure CliOpt where
  names : List Text
  dest : Text
  action : Action
  default : ArgVal
  choices : List Text := []
deriving DecidableEq

/-- The subcommands, /repo/radvel/cli.py 43, 49, 74, 129, 158, 171, 200, 218. -/
inductive SubCmd | fit | plot | mcmc | ns | derive | ic | table | report
deriving DecidableEq

/-- The word that selects a subcommand. Models /repo/radvel/cli.py 43, 49, 74, 129, 158, 171, 200, 218. -/
def SubCmd.word : SubCmd → Text
  | .fit => "fit".toList
  | .plot => "plot".toList
  | .mcmc => "mcmc".toList
  | .ns => "ns".toList
  | .derive => "derive".toList
  | .ic => "ic".toList
  | .table => "table".toList
  | .report => "report".toList

/-- All subcommands. Models /repo/radvel/cli.py 43-228. -/
def allSubs : List SubCmd := [.fit, .plot, .mcmc, .ns, .derive, .ic, .table, .report]

/-- An option with one value. Models /repo/radvel/cli.py 77-113. -/
def oneOpt (names : List String) (dest : String) (c : Conv) (default : ArgVal) (choices : List String := []) : CliOpt :=
  { names := names.map String.toList, dest := dest.toList, action := .one c, default := default, choices := choices.map String.toList }

/-- A flag; its default is the other value. Models /repo/radvel/cli.py 35-40, 117-125. -/
def flagOpt (names : List String) (dest : String) (b : Bool) : CliOpt :=
  { names := names.map String.toList, dest := dest.toList, action := .flag b, default := .bool (!b) }

/-- `psr_parent`, /repo/radvel/cli.py 25-40. -/
def parentOpts : List CliOpt :=
  [oneOpt ["-d"] "outputdir" .str .none, oneOpt ["-s", "--setup"] "setupfn" .str .none, flagOpt ["--decorr"] "decorr" true]

/-- `--sampler` of four subcommands, /repo/radvel/cli.py 64-69, 162-167, 212-213, 225-226. -/
def samplerOpt : CliOpt := oneOpt ["--sampler"] "sampler" .str (.str "auto".toList) ["mcmc", "ns", "auto"]

/-- The option `-t` of `plot`, `ic` and `table`, /repo/radvel/cli.py 50-54, 172-175, 201-204. -/
def typeOpt (default : ArgVal) (choices : List String) : CliOpt :=
  { names := ["-t".toList, "--type".toList], dest := "type".toList, action := .many, default := default, choices := choices.map String.toList }

/-- A number written `m · 10^e` in the source. Used for /repo/radvel/cli.py 77-113. -/
def decimal (m : Nat) (e : Int) : ArgVal := .float (.dec false m e)

/-- The options of the subcommands besides the common ones, /repo/radvel/cli.py 50-69, 77-125, 130-154, 162-167, 172-196, 201-213, 221-226. The last three of `ic` stand after `set_defaults`
(197), which changes the default of `mixed` to `True`. -/
def ownOpts : SubCmd → List CliOpt
  | .fit => []
  | .plot => [typeOpt .none ["rv", "auto", "corner", "trend", "derived"], oneOpt ["--plotkw"] "plotkw" .eval (.code "{}".toList), flagOpt ["--gp"] "gp" true, samplerOpt]
  | .mcmc =>
    [oneOpt ["--nsteps"] "nsteps" .float (.int 10000), oneOpt ["--nwalkers"] "nwalkers" .int (.int 50), oneOpt ["--nensembles"] "ensembles" .int (.int 8),
     oneOpt ["--minAfactor"] "minAfactor" .float (.int 40), oneOpt ["--maxArchange"] "maxArchange" .float (decimal 3 (-2)), oneOpt ["--maxGR"] "maxGR" .float (decimal 101 (-2)),
     oneOpt ["--burnGR"] "burnGR" .float (decimal 103 (-2)), oneOpt ["--burnAfactor"] "burnAfactor" .float (.int 25), oneOpt ["--minTz"] "minTz" .int (.int 1000),
     oneOpt ["--minsteps"] "minsteps" .int (.int 1000), oneOpt ["--minpercent"] "minpercent" .float (.int 5), oneOpt ["--thin"] "thin" .int (.int 10),
     oneOpt ["--serial"] "serial" .bool (.bool false), flagOpt ["--save"] "save" true, flagOpt ["--proceed"] "proceed" true, flagOpt ["--headless"] "headless" true]
  | .ns =>
    [oneOpt ["--sampler"] "sampler" .str (.str "ultranest".toList) ["dynesty-static", "dynesty-dynamic", "multinest", "ultranest", "nautilus"], flagOpt ["--proceed"] "proceed" true,
     flagOpt ["--overwrite"] "overwrite" true, oneOpt ["--sampler-kwargs"] "sampler_kwargs" .str .none, oneOpt ["--run-kwargs"] "run_kwargs" .str .none]
  | .derive => [samplerOpt]
  | .ic =>
    [typeOpt (.str "trend".toList) ["nplanets", "e", "trend", "jit", "gp"], { flagOpt ["-m", "--mixed"] "mixed" true with default := .bool true }, flagOpt ["-u", "--un-mixed"] "mixed" false,
     flagOpt ["-f", "--fixjitter"] "fixjitter" true, { flagOpt ["-n", "--no-fixjitter"] "fixjitter" false with default := .bool false }, flagOpt ["--simple"] "simple" true,
     flagOpt ["-v", "--verbose"] "verbose" true]
  | .table =>
    [typeOpt .none ["params", "priors", "rv", "ic_compare", "derived", "crit"], flagOpt ["--header"] "header" true, flagOpt ["--name_in_title"] "name_in_title" true, samplerOpt]
  | .report => [oneOpt ["--comptype"] "comptype" .str (.str "ic".toList), oneOpt ["--latex-compiler"] "latex_compiler" .str (.str "pdflatex".toList), samplerOpt]

/-- The options of a subcommand. Models /repo/radvel/cli.py 25-226. -/
def SubCmd.opts (c : SubCmd) : List CliOpt := parentOpts ++ ownOpts c

/-- The namespace before parsing: the first option with a name decides its default. `set_defaults` (197) adds `unmixed`, which nothing reads. Models /repo/radvel/cli.py 25-230. -/
def startNames (opts : List CliOpt) : Dict Text ArgVal := opts.foldl (fun d o => if Dict.has d o.dest then d else Dict.set d o.dest o.default) []

/-- A value given on the command line: `type(text)` and the test of `choices`. `bool(text)` is false for the empty text only. Used for /repo/radvel/cli.py 230. -/
def convert (choices : List Text) (c : Conv) (t : Text) : Option ArgVal :=
  if choices ≠ [] ∧ t ∉ choices then none
  else
    match c with
    | .str => some (.str t)
    | .int => (pyInt t).map .int
    | .float => (pyFloat t).map .float
    | .bool => some (.bool (decide (t ≠ [])))
    | .eval => some (.code t)

/-- What `type` and `choices` make of the words for one option. Used for /repo/radvel/cli.py 230. -/
def give (o : CliOpt) (vs : List Text) : Option ArgVal :=
  match o.action with
  | .flag b => if vs = [] then some (.bool b) else none
  | .one c =>
    match vs with
    | [v] => convert o.choices c v
    | _ => none
  | .many => if vs = [] ∨ ∃ v ∈ vs, v ∉ o.choices then none else some (.strs vs)

/-! #### the words: `argparse.py` of Python 3.11 -/

/-- `_option_string_actions` of a subparser: the names with their options; `none` is the help option that every subparser has. Used for /repo/radvel/cli.py 230. -/
def optStrings (opts : List CliOpt) : List (Text × Option CliOpt) :=
  [("-h".toList, none), ("--help".toList, none)] ++ opts.flatMap (fun o => o.names.map (fun n => (n, some o)))

/-- `self._option_string_actions[w]`. Used for /repo/radvel/cli.py 230. -/
def findName (tab : List (Text × Option CliOpt)) (w : Text) : Option (Option CliOpt) := (tab.find? (fun e => decide (e.1 = w))).map (fun e => e.2)

/-- `w.partition('=')`: what is before the first `=`, and what is after it if there is one. Used for /repo/radvel/cli.py 230. -/
def partitionEq : Text → Text × Option Text
  | [] => ([], none)
  | c :: t => if c = '=' then ([], some t) else (c :: (partitionEq t).1, (partitionEq t).2)

/-- The tuples of `_parse_optional`: the name, the option (`none` is help), whether there was a `=`, the text that comes with it. Used for /repo/radvel/cli.py 230. -/
structure OptTok where
  name : Text
  opt : Option CliOpt
  sep : Bool
  arg : Option Text

/-- `_get_option_tuples(w)` for a word of two or more characters that begins with `-`: the names that begin with it (up to the `=`) if it begins with `--`, else the name that its first two characters
are and the names that begin with it. Used for /repo/radvel/cli.py 230. -/
def optionTuples (tab : List (Text × Option CliOpt)) (w : Text) : List OptTok :=
  if "--".toList.isPrefixOf w then
    (tab.filter (fun e => (partitionEq w).1.isPrefixOf e.1)).map (fun e => ⟨e.1, e.2, (partitionEq w).2.isSome, (partitionEq w).2⟩)
  else
    tab.filterMap (fun e =>
      if e.1 = w.take 2 then some ⟨e.1, e.2, false, some (w.drop 2)⟩
      else if w.isPrefixOf e.1 then some ⟨e.1, e.2, false, none⟩
      else none)

/-- `_negative_number_matcher.match(w)`; `\d` is taken to be a decimal digit of ASCII, `$` the end. Used for /repo/radvel/cli.py 230. -/
def isNegNumber : Text → Bool
  | '-' :: t =>
    match t.dropWhile Char.isDigit with
    | [] => decide (t ≠ [])
    | '.' :: b => decide (b ≠ []) && b.all Char.isDigit
    | _ => false
  | _ => false

/-- What a word is taken for. Used for /repo/radvel/cli.py 230. -/
inductive Tok
  | value
  | opt (t : OptTok)
  | unknown

/-- `_parse_optional(w)`: a value, an option, or something like an option that there is not; `none` is the error for an ambiguous word. After `--` all words are for positional arguments, of which
the subcommands have none: such a line is refused in any case. Used for /repo/radvel/cli.py 230. -/
def classify (tab : List (Text × Option CliOpt)) (w : Text) : Option Tok :=
  if w = "--".toList then none
  else
    match w with
    | '-' :: r =>
      match findName tab w with
      | some o => some (.opt ⟨w, o, false, none⟩)
      | none =>
        if r = [] then some .value
        else
          match (partitionEq w).2, findName tab (partitionEq w).1 with
          | some v, some o => some (.opt ⟨(partitionEq w).1, o, true, some v⟩)
          | _, _ =>
            match optionTuples tab w with
            | [] => if isNegNumber w || w.contains ' ' then some .value else some .unknown
            | [t] => some (.opt t)
            | _ => none
    | _ => some .value

/-- Words that are values, not options. Used for /repo/radvel/cli.py 230. -/
def isValue (tab : List (Text × Option CliOpt)) (w : Text) : Bool :=
  match classify tab w with
  | some .value => true
  | _ => false

/-- The loop of `consume_optional` over an option with the text `a` behind it: behind a flag of one letter it is more such options, the last of them maybe with a text of its own; behind any other option
it is the value. `long` is whether the name begins with `--`. The flags and the last option with its text are returned. A help option among them ends the program. Used for /repo/radvel/cli.py 230. -/
def unbundle (tab : List (Text × Option CliOpt)) (long : Bool) (o : CliOpt) (sep : Bool) (a : Text) : Option (List CliOpt × CliOpt × Option Text) :=
  match o.action with
  | .one _ => some ([], o, some a)
  | .many => some ([], o, some a)
  | .flag _ =>
    match a with
    | [] => none
    | x :: rest =>
      if long || sep || x == '-' then none
      else
        match findName tab ['-', x] with
        | some (some o') =>
          match rest with
          | [] => some ([o], o', none)
          | y :: rest' => (if y = '=' then unbundle tab false o' true rest' else unbundle tab false o' false (y :: rest')).map (fun r => (o :: r.1, r.2))
        | _ => none
termination_by a.length

/-- The options of a word and the text attached to the last; `none` is an error, the help, or a word that is no option: all of them end the program. Used for /repo/radvel/cli.py 230. -/
def readWord (tab : List (Text × Option CliOpt)) (w : Text) : Option (List CliOpt × CliOpt × Option Text) :=
  match classify tab w with
  | some (.opt ⟨name, some o, sep, some a⟩) => unbundle tab ("--".toList.isPrefixOf name) o sep a
  | some (.opt ⟨_, some o, _, none⟩) => some ([], o, none)
  | _ => none

/-- `_match_argument`: the words that follow an option and belong to it. Used for /repo/radvel/cli.py 230. -/
def followers (tab : List (Text × Option CliOpt)) (o : CliOpt) (ws : List Text) : List Text :=
  match o.action with
  | .flag _ => []
  | .one _ => (ws.take 1).takeWhile (isValue tab)
  | .many => ws.takeWhile (isValue tab)

/-- `take_action` of a flag. Used for /repo/radvel/cli.py 230. -/
def setFlag (d : Dict Text ArgVal) (o : CliOpt) : Dict Text ArgVal :=
  match o.action with
  | .flag b => Dict.set d o.dest (.bool b)
  | _ => d

/-- The loop of `_parse_known_args` over the words. Used for /repo/radvel/cli.py 230. -/
def parseWords (opts : List CliOpt) (ws : List Text) (d : Dict Text ArgVal) : Option (Dict Text ArgVal) :=
  match ws with
  | [] => some d
  | w :: ws =>
    match readWord (optStrings opts) w with
    | none => none
    | some (flags, o, some v) =>
      match give o [v] with
      | none => none
      | some x => parseWords opts ws (Dict.set (flags.foldl setFlag d) o.dest x)
    | some (flags, o, none) =>
      match give o (followers (optStrings opts) o ws) with
      | none => none
      | some x => parseWords opts (ws.drop (followers (optStrings opts) o ws).length) (Dict.set (flags.foldl setFlag d) o.dest x)
termination_by ws.length
decreasing_by
  all_goals simp
  omega

/-- The subcommand a word selects. Used for /repo/radvel/cli.py 230. -/
def findSub (w : Text) : Option SubCmd := allSubs.find? (fun c => decide (c.word = w))

/-- `psr.parse_args()`, /repo/radvel/cli.py 230: the subcommand, if any, and the namespace. The subcommand may be missing (Python 3). -/
def parseArgs : List Text → Option (Option SubCmd × Dict Text ArgVal)
  | [] => some (none, [])
  | w :: ws =>
    match findSub w with
    | none => none
    | some c => (parseWords c.opts ws (startNames c.opts)).map (fun d => (some c, d))

/-! ### after parsing -/

/-- An attribute of `args`. Used for /repo/radvel/driver.py 39-757. -/
def attr (d : Dict Text ArgVal) (k : String) : Except PyErr ArgVal :=
  match Dict.get? d k.toList with
  | some v => .ok v
  | none => .error .attributeError

/-- `os.path.basename(f)`: what follows the last slash. Used for /repo/radvel/cli.py 235. -/
def basename (f : Text) : Text := (splitChar '/' f).getLastD []

/-- `os.path.basename(setupfile).split('.')[0]`, /repo/radvel/cli.py 235; the same expression names the files of all commands (/repo/radvel/driver.py 40, 147, 173, 350, 407, 470, 574, 695). -/
def confBase (f : Text) : Text := (splitChar '.' (basename f)).headD []

/-- The directory a text names: empty parts and `.` are dropped; `..` and links are not modelled. Used for /repo/radvel/cli.py 236. -/
def dirOf (t : Text) : Dir :=
  let parts := ((splitChar '/' t).filter (fun p => p ≠ [] ∧ p ≠ ".".toList)).map String.ofList
  if "/".toList.isPrefixOf t then .abs parts else .rel parts

/-- `os.mkdir(p)`; that `p` is an ordinary file is not modelled. Used for /repo/radvel/cli.py 240. -/
def mkdir (p : Path) : Prog Unit := fun s =>
  if p ∈ s.dirs then (s, .error .fileExistsError)
  else if p.dropLast ∈ s.dirs then ({ s with dirs := s.dirs ++ [p] }, .ok ())
  else (s, .error .fileNotFoundError)

/-- The default of the output directory, /repo/radvel/cli.py 232-237. -/
def outputDir (d : Dict Text ArgVal) : Except PyErr (Dict Text ArgVal × Text) := do
  match ← attr d "outputdir" with
  | .str t => return (d, t)
  | _ =>
    match ← attr d "setupfn" with
    | .str f => return (Dict.set d "outputdir".toList (.str ("./".toList ++ confBase f)), "./".toList ++ confBase f)
    | _ => .error .typeError

/-- Making the directory, /repo/radvel/cli.py 239-240. -/
def makeDir (t : Text) : Prog Unit := fun s =>
  if (dirOf t).resolve s.cwd ∈ s.dirs then (s, .ok ()) else mkdir ((dirOf t).resolve s.cwd) s

/-- `main`, /repo/radvel/cli.py 230-242, up to the call of `args.func`: the namespace it is called with. -/
def cliMain (d : Dict Text ArgVal) : Prog (Dict Text ArgVal) := fun s =>
  match outputDir d with
  | .error e => (s, .error e)
  | .ok (d, t) =>
    match makeDir t s with
    | (s, .error e) => (s, .error e)
    | (s, .ok ()) => (s, .ok d)

/-! ### what the commands read -/

/-- The attributes of `args` that the commands read without asking `hasattr`, /repo/radvel/driver.py 39-130 (`plots`), 146-160, 172-241, 349-385, 406-456, 469-531, 573-680, 694-757 and 545 (`_pick_sampler`, called by
`plots`, `tables`, `derive` and `report`). -/
def SubCmd.reads : SubCmd → List String
  | .fit => ["setupfn", "outputdir", "decorr"]
  | .plot => ["setupfn", "outputdir", "decorr", "type", "plotkw", "gp", "sampler"]
  | .mcmc => ["setupfn", "outputdir", "decorr", "save", "proceed", "nwalkers", "nsteps", "ensembles", "minAfactor", "maxArchange", "maxGR", "minTz", "burnAfactor", "burnGR", "minsteps", "minpercent",
      "thin", "serial", "headless"]
  | .ns => ["setupfn", "outputdir", "decorr", "run_kwargs", "sampler_kwargs", "proceed", "overwrite", "sampler"]
  | .derive => ["setupfn", "outputdir", "sampler"]
  | .ic => ["setupfn", "outputdir", "decorr", "type", "simple", "verbose"]
  | .table => ["setupfn", "outputdir", "type", "name_in_title", "sampler"]
  | .report => ["setupfn", "outputdir", "sampler", "comptype", "latex_compiler"]

/-- The items of `for x in args.type`: a bare string is taken letter by letter, `None` raises. Models /repo/radvel/driver.py 54, 435, 506. -/
def typeItems : ArgVal → Except PyErr (List Text)
  | .strs l => .ok l
  | .str t => .ok (t.map fun c => [c])
  | _ => .error .typeError

/-- `choices` of `ic_compare`, /repo/radvel/driver.py 420. -/
def icChoice (t : Text) : Option Comp :=
  if t = "nplanets".toList then some .nplanets
  else if t = "e".toList then some .e
  else if t = "trend".toList then some .trend
  else if t = "jit".toList then some .jit
  else if t = "gp".toList then some .gp
  else none

/-- One turn of the loop over the types of comparison, /repo/radvel/driver.py 435-439: unknown ones fail an assertion. -/
def icItem (t : Text) : Except PyErr Comp :=
  match icChoice t with
  | some c => .ok c
  | none => .error .assertionError

/-- The comparisons of `ic_compare`, /repo/radvel/driver.py 423 and 427-439; with `--simple` the types are not looked at. -/
def icTypes (d : Dict Text ArgVal) : Except PyErr (List Comp) := do
  let v ← attr d "type"
  match ← attr d "simple" with
  | .bool true => return []
  | _ =>
    let l ← typeItems v
    l.mapM icItem

/-- The tables of `tables`, /repo/radvel/driver.py 503-528: `ic_compare` is a case of its own, the others are in `attrdict`; unknown ones fail an assertion. -/
def tableItem (t : Text) : Except PyErr TableType :=
  if t = "ic_compare".toList then .ok .icCompare
  else if t = "rv".toList then .ok .rv
  else if t = "crit".toList then .ok .crit
  else if t = "priors".toList then .ok .priors
  else if t = "params".toList then .ok .params
  else if t = "derived".toList then .ok .derived
  else .error .assertionError

/-- The tables asked for, /repo/radvel/driver.py 506. -/
def tableTypes (d : Dict Text ArgVal) : Except PyErr (List TableType) := do
  let l ← typeItems (← attr d "type")
  l.mapM tableItem

/-- The tests of `plots`, /repo/radvel/driver.py 57, 104, 109, 114 and 122: a type with no case makes nothing. -/
def plotItem (t : Text) : Option PlotType :=
  if t = "rv".toList then some .rv
  else if t = "auto".toList then some .auto
  else if t = "corner".toList then some .corner
  else if t = "trend".toList then some .trend
  else if t = "derived".toList then some .derived
  else none

/-- The plots asked for, /repo/radvel/driver.py 54. -/
def plotTypes (d : Dict Text ArgVal) : Except PyErr (List PlotType) := do
  let l ← typeItems (← attr d "type")
  return l.filterMap plotItem

/-- `args.sampler` as `_pick_sampler` compares it. Models /repo/radvel/driver.py 545-561. -/
def samplerText (d : Dict Text ArgVal) : Except PyErr Text := do
  match ← attr d "sampler" with
  | .str t => return t
  | _ => .error .typeError

end Radvel
