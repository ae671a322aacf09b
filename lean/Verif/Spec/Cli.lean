import Verif.Model.Cli
import Verif.Spec.Driver

/-!
# What a command line means

A command line is a list of uses of options. This is the meaning that users expect from the table of options, without the parser. An option may be named in full or abbreviated, its value may be
attached, flags of one letter may be bundled: the manual of `argparse` describes these spellings.
-/

namespace Radvel

/-- One use of an option on a command line: the full name of what was typed, the option, the values typed. -/
structure OptUse where
  name : Text
  opt : CliOpt
  vals : List Text

/-- The words of a use when it is typed with the full name and the values as words of their own. -/
def OptUse.words (u : OptUse) : List Text := u.name :: u.vals

/-- A word that does not look like an option. -/
def Plain (w : Text) : Prop := ∀ t, w ≠ '-' :: t

/-- A value of type `c` written as `t`. -/
inductive Written : Conv → Text → ArgVal → Prop
  | str (t : Text) : Written .str t (.str t)
  | int (t : Text) (n : Int) : IntText t n → Written .int t (.int n)
  | float (t : Text) (x : FloatText) : pyFloat t = some x → Written .float t (.float x)
  | bool (t : Text) : Written .bool t (.bool (decide (t ≠ [])))
  | eval (t : Text) : Written .eval t (.code t)

/-- What a use of an option gives. -/
inductive Gives (o : CliOpt) : List Text → ArgVal → Prop
  | flag (b : Bool) : o.action = .flag b → Gives o [] (.bool b)
  | one (c : Conv) (v : Text) (x : ArgVal) : o.action = .one c → (o.choices = [] ∨ v ∈ o.choices) → Written c v x → Gives o [v] x
  | many (vs : List Text) : o.action = .many → vs ≠ [] → (∀ v ∈ vs, v ∈ o.choices) → Gives o vs (.strs vs)

/-- A use of one of the options. -/
def GoodUse (opts : List CliOpt) (u : OptUse) : Prop := u.opt ∈ opts ∧ u.name ∈ u.opt.names ∧ ∃ x, Gives u.opt u.vals x

/-- The value of `dest` after some uses: the last use of an option for it, else the default that the first option for it has. -/
def ValueAfter (opts : List CliOpt) (uses : List OptUse) (dest : Text) (r : Option ArgVal) : Prop :=
  (∃ pre u post x, uses = pre ++ u :: post ∧ u.opt.dest = dest ∧ (∀ w ∈ post, w.opt.dest ≠ dest) ∧ Gives u.opt u.vals x ∧ r = some x) ∨
  ((∀ u ∈ uses, u.opt.dest ≠ dest) ∧
    ((∃ pre o post, opts = pre ++ o :: post ∧ o.dest = dest ∧ (∀ p ∈ pre, p.dest ≠ dest) ∧ r = some o.default) ∨ ((∀ o ∈ opts, o.dest ≠ dest) ∧ r = none)))

/-! ### the spellings of a command line -/

/-- The names of the options, and of the help. -/
def IsName (opts : List CliOpt) (n : Text) : Prop := (∃ o ∈ opts, n ∈ o.names) ∨ n = "-h".toList ∨ n = "--help".toList

/-- `w` stands for the name `n`: it is `n`, or it begins with `--` and `n` is the only name that begins with `w`. -/
def Stands (opts : List CliOpt) (w n : Text) : Prop :=
  w = n ∨ ("--".toList <+: w ∧ ¬ IsName opts w ∧ w <+: n ∧ ∀ m, IsName opts m → w <+: m → m = n)

/-- What is behind the letter of an option: nothing, `=` and a value, or a value. -/
inductive Attached : Text → Option Text → Prop
  | nothing : Attached [] none
  | equals (v : Text) : Attached ('=' :: v) (some v)
  | direct (c : Char) (v : Text) : c ≠ '=' → Attached (c :: v) (some (c :: v))

/-- `WordFor opts w flags n o a`: the word `w` means the flags `flags`, then the option `o` by its name `n`, with the value `a` if there is one in the word. -/
inductive WordFor (opts : List CliOpt) : Text → List OptUse → Text → CliOpt → Option Text → Prop
  | named (w n : Text) (o : CliOpt) : o ∈ opts → n ∈ o.names → Stands opts w n → WordFor opts w [] n o none
  | equals (w n v : Text) (o : CliOpt) : o ∈ opts → n ∈ o.names → Stands opts w n → WordFor opts (w ++ '=' :: v) [] n o (some v)
  | letters (fs : List (Char × CliOpt)) (x : Char) (o : CliOpt) (tail : Text) (a : Option Text) : (∀ f ∈ fs, f.2 ∈ opts ∧ ['-', f.1] ∈ f.2.names ∧ ∃ b, f.2.action = .flag b) →
      o ∈ opts → ['-', x] ∈ o.names → Attached tail a →
      WordFor opts ('-' :: (fs.map (fun f => f.1) ++ x :: tail)) (fs.map fun f => ⟨['-', f.1], f.2, []⟩) ['-', x] o a

/-- A negative number: `-12`, `-1.5`, `-.5`. -/
def NegNumber (w : Text) : Prop :=
  ∃ a b : Text, (∀ c ∈ a, c.isDigit = true) ∧ (∀ c ∈ b, c.isDigit = true) ∧ ((w = '-' :: a ∧ a ≠ []) ∨ (w = '-' :: (a ++ '.' :: b) ∧ b ≠ []))

/-- No option can be meant by `w`, which begins with `-`: no name begins with `w` (up to a `=`); if `w` begins with one `-` only, its first letter is not an option either. -/
def NoOption (opts : List CliOpt) (w : Text) : Prop :=
  ("--".toList <+: w → ∀ p, (p = w ∧ '=' ∉ w ∨ ∃ v, w = p ++ '=' :: v ∧ '=' ∉ p) → ∀ n, IsName opts n → ¬ p <+: n) ∧
  (¬ "--".toList <+: w → ∀ n, IsName opts n → ¬ w <+: n ∧ ∀ c t, w = '-' :: c :: t → n ≠ ['-', c])

/-- A word that is taken for a value. -/
def ValueWord (opts : List CliOpt) (w : Text) : Prop := Plain w ∨ w = "-".toList ∨ ((NegNumber w ∨ ' ' ∈ w) ∧ (∃ t, w = '-' :: t) ∧ NoOption opts w)

/-- `uses` typed as the words `ws`. -/
inductive Spelled (opts : List CliOpt) : List OptUse → List Text → Prop
  | nil : Spelled opts [] []
  | apart (w : Text) (fs : List OptUse) (n : Text) (o : CliOpt) (vals : List Text) (x : ArgVal) (uses : List OptUse) (ws : List Text) : WordFor opts w fs n o none → Gives o vals x →
      (∀ v ∈ vals, ValueWord opts v) → Spelled opts uses ws → Spelled opts (fs ++ ⟨n, o, vals⟩ :: uses) (w :: (vals ++ ws))
  | attached (w : Text) (fs : List OptUse) (n : Text) (o : CliOpt) (v : Text) (x : ArgVal) (uses : List OptUse) (ws : List Text) : WordFor opts w fs n o (some v) → Gives o [v] x →
      Spelled opts uses ws → Spelled opts (fs ++ ⟨n, o, [v]⟩ :: uses) (w :: ws)

/-- `ws` spells the uses `uses` of options of `c`. -/
def Spells (c : SubCmd) (uses : List OptUse) (ws : List Text) : Prop := Spelled c.opts uses ws

/-- The last use of an option for `dest`. -/
def LastUse (uses : List OptUse) (dest : String) (u : OptUse) : Prop := ∃ pre post, uses = pre ++ u :: post ∧ u.opt.dest = dest.toList ∧ ∀ w ∈ post, w.opt.dest ≠ dest.toList

/-- No use of an option for `dest`. -/
def Unused (uses : List OptUse) (dest : String) : Prop := ∀ u ∈ uses, u.opt.dest ≠ dest.toList

/-- The word for a comparison. -/
def compWord : Comp → Text
  | .e => "e".toList
  | .nplanets => "nplanets".toList
  | .trend => "trend".toList
  | .jit => "jit".toList
  | .gp => "gp".toList

/-- The word for a table. -/
def tableWord : TableType → Text
  | .params => "params".toList
  | .priors => "priors".toList
  | .rv => "rv".toList
  | .icCompare => "ic_compare".toList
  | .derived => "derived".toList
  | .crit => "crit".toList

/-- The word for a plot. -/
def plotWord : PlotType → Text
  | .rv => "rv".toList
  | .auto => "auto".toList
  | .corner => "corner".toList
  | .trend => "trend".toList
  | .derived => "derived".toList

end Radvel
