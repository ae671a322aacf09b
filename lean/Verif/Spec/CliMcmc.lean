import Verif.Model.CliMcmc
import Verif.Spec.Cli

/-!
# Which option of `radvel mcmc` sets which setting of the sampler
-/

namespace Radvel

/-- Settings of the sampler and the options for them, as documented. -/
def mcmcSettings : List (String × String) :=
  [("nwalkers", "--nwalkers"), ("nrun", "--nsteps"), ("ensembles", "--nensembles"), ("minAfactor", "--minAfactor"), ("maxArchange", "--maxArchange"), ("burnAfactor", "--burnAfactor"), ("burnGR", "--burnGR"),
   ("maxGR", "--maxGR"), ("minTz", "--minTz"), ("minsteps", "--minsteps"), ("minpercent", "--minpercent"), ("thin", "--thin"), ("serial", "--serial"), ("save", "--save"), ("proceed", "--proceed"),
   ("headless", "--headless")]

/-- The last use of the option called `name`. -/
def LastNamed (uses : List OptUse) (name : String) (u : OptUse) : Prop := ∃ pre post, uses = pre ++ u :: post ∧ u.name = name.toList ∧ ∀ w ∈ post, w.name ≠ name.toList

/-- The option called `name` is not used. -/
def Unnamed (uses : List OptUse) (name : String) : Prop := ∀ u ∈ uses, u.name ≠ name.toList

/-- `path` names the file `name` of the directory `dir`: a slash is put between them unless the directory is empty (the current one) or ends with one. -/
inductive FileIn (dir name : Text) : Text → Prop
  | here : dir = [] → FileIn dir name name
  | slash (d : Text) : dir = d ++ ['/'] → FileIn dir name (dir ++ name)
  | plain (d : Text) (c : Char) : dir = d ++ [c] → c ≠ '/' → FileIn dir name (dir ++ '/' :: name)

end Radvel
