import Verif.Py.Dict

/-!
# The status file: `radvel/driver.py` 760-798

The file is written and read by `configparser.RawConfigParser` of the standard library, which is modelled here character by character with its default options. Simplifications: white space is the ASCII
one, lower case is defined for ASCII letters, texts have no carriage returns, and the special section `DEFAULT` is not treated.
-/

namespace Radvel

/-- A text. Used for /repo/radvel/driver.py 760-798. -/
abbrev Text := List Char

/-- The contents of a `RawConfigParser`: sections, options, values. Values that are not texts are written with `str()`, so they are texts here. Used for /repo/radvel/driver.py 770-779, 795-798. -/
abbrev Config := Dict Text (Dict Text Text)

/-- White space for `str.strip` and `\s`. Used for /repo/radvel/driver.py 773, 796. -/
def isSpace (c : Char) : Bool := c = ' ' || c = '\t' || c = '\n' || c = '\r' || c = Char.ofNat 11 || c = Char.ofNat 12

/-- `str.lstrip`. Used for /repo/radvel/driver.py 773, 796. -/
def lstrip (t : Text) : Text := t.dropWhile isSpace

/-- `str.rstrip`. Used for /repo/radvel/driver.py 773, 796. -/
def rstrip (t : Text) : Text := (t.reverse.dropWhile isSpace).reverse

/-- `str.strip`. Used for /repo/radvel/driver.py 773, 796. -/
def strip (t : Text) : Text := rstrip (lstrip t)

/-- `str.lower`, used as `optionxform`. Used for /repo/radvel/driver.py 773-779, 796. -/
def lower (t : Text) : Text := t.map Char.toLower

/-- Iterating over the lines of a file (without their ends). Used for /repo/radvel/driver.py 773, 796. -/
def fileLines : Text → List Text
  | [] => []
  | c :: t =>
    if c = '\n' then [] :: fileLines t
    else match fileLines t with
      | [] => [[c]]
      | l :: ls => (c :: l) :: ls

/-- `RawConfigParser.SECTCRE`, `\[(?P<header>.+)\]`, matched at the start of a line. Used for /repo/radvel/driver.py 773, 796. -/
def sectionHeader : Text → Option Text
  | '[' :: t =>
    match t.reverse.dropWhile (· ≠ ']') with
    | [] => none
    | _ :: h => if h = [] then none else some h.reverse
  | _ => none

/-- `RawConfigParser.OPTCRE`, `(?P<option>.*?)\s*(?:(?P<vi>=|:)\s*(?P<value>.*))$`: the texts before and after the first delimiter. Used for /repo/radvel/driver.py 773, 796. -/
def splitOption (v : Text) : Option (Text × Text) :=
  match v.dropWhile (fun c => c ≠ '=' && c ≠ ':') with
  | [] => none
  | _ :: val => some (v.takeWhile (fun c => c ≠ '=' && c ≠ ':'), val)

/-- The local variables of `RawConfigParser._read`: `_sections` (each value as a list of lines), `cursect`, `optname`, `indent_level`. Used for /repo/radvel/driver.py 773, 796. -/
structure ReadState where
  sections : Dict Text (Dict Text (List Text))
  cur : Option Text
  opt : Option Text
  indent : Nat

/-- The number of spaces at the start of a line. Used for /repo/radvel/driver.py 773, 796. -/
def indentOf (line : Text) : Nat := (line.takeWhile isSpace).length

/-- `cursect[optname].append(x)`. Used for /repo/radvel/driver.py 773, 796. -/
def appendLine (st : ReadState) (s o x : Text) : ReadState :=
  match st.sections.get? s with
  | none => st
  | some d =>
    match d.get? o with
    | none => st
    | some ls => { st with sections := st.sections.set s (d.set o (ls ++ [x])) }

/-- A line that is neither blank nor a comment nor a continuation, `RawConfigParser._read`. All the exceptions are subclasses of `configparser.Error`; a line that cannot be parsed makes the method fail at
the end of the file. Used for /repo/radvel/driver.py 773, 796. -/
def readHead (st : ReadState) (line v : Text) : Except PyErr ReadState :=
  match sectionHeader v with
  | some name =>
    if st.sections.has name then .error .exception
    else .ok { sections := st.sections.set name [], cur := some name, opt := none, indent := indentOf line }
  | none =>
    match st.cur with
    | none => .error .exception
    | some s =>
      match splitOption v with
      | none => .error .exception
      | some (o, val) =>
        let o := lower (rstrip o)
        match st.sections.get? s with
        | none => .error .exception
        | some d =>
          if o = [] ∨ d.has o = true then .error .exception
          else .ok { sections := st.sections.set s (d.set o [strip val]), cur := st.cur, opt := some o, indent := indentOf line }

/-- One turn of the loop of `RawConfigParser._read`. Used for /repo/radvel/driver.py 773, 796. -/
def readLine (st : ReadState) (line : Text) : Except PyErr ReadState :=
  let v := strip line
  if v.head? = some '#' ∨ v.head? = some ';' then .ok st
  else
    match st.cur, st.opt with
    | some s, some o =>
      if v = [] then .ok (appendLine st s o [])
      else if st.indent < indentOf line then .ok (appendLine st s o v)
      else readHead st line v
    | _, _ => if v = [] then .ok st else readHead st line v

/-- `'\n'.join(lines)`. Used for /repo/radvel/driver.py 773, 796. -/
def joinLines : List Text → Text
  | [] => []
  | [l] => l
  | l :: ls => l ++ '\n' :: joinLines ls

/-- `_join_multiline_values`. Used for /repo/radvel/driver.py 773, 796. -/
def finishSections (d : Dict Text (Dict Text (List Text))) : Config := d.map fun s => (s.1, s.2.map fun o => (o.1, rstrip (joinLines o.2)))

/-- `RawConfigParser().read(file)` for a file with this content. Used for /repo/radvel/driver.py 773, 796. -/
def readConfig (t : Text) : Except PyErr Config :=
  match (fileLines t).foldlM readLine { sections := [], cur := none, opt := none, indent := 0 } with
  | .error e => .error e
  | .ok st => .ok (finishSections st.sections)

/-- `str(value).replace('\n', '\n\t')`. Used for /repo/radvel/driver.py 782. -/
def indentLines (v : Text) : Text := v.flatMap fun c => if c = '\n' then ['\n', '\t'] else [c]

/-- The line (or lines) of one option. Used for /repo/radvel/driver.py 782. -/
def writeOption (o : Text × Text) : Text := o.1 ++ ' ' :: '=' :: ' ' :: indentLines o.2 ++ ['\n']

/-- One section, `RawConfigParser._write_section`. Used for /repo/radvel/driver.py 782. -/
def writeSection (s : Text × Dict Text Text) : Text := '[' :: s.1 ++ ']' :: '\n' :: s.2.flatMap writeOption ++ ['\n']

/-- `RawConfigParser.write`. Used for /repo/radvel/driver.py 782. -/
def writeConfig (c : Config) : Text := c.flatMap writeSection

/-- `config.set(section, key, val)` for a section that exists: the option's name is converted to lower case. Models /repo/radvel/driver.py 778-779. -/
def setOption (c : Config) (s : Text) (o : Text × Text) : Config := c.set s (((c.get? s).getD []).set (lower o.1) o.2)

/-- `load_status`, /repo/radvel/driver.py 785-798; a missing file (`none`) is ignored by `config.read`. -/
def loadStatus (file : Option Text) : Except PyErr Config :=
  match file with
  | none => .ok []
  | some t => readConfig t

/-- `save_status` up to the `open`, /repo/radvel/driver.py 770-779: the new configuration. -/
def newStatus (file : Option Text) (sec : Text) (vars : List (Text × Text)) : Except PyErr Config :=
  match loadStatus file with
  | .error e => .error e
  | .ok c => .ok (vars.foldl (fun c o => setOption c sec o) (if c.has sec then c else c.set sec []))

/-- `save_status`, /repo/radvel/driver.py 760-782: the new content of the file. -/
def saveStatus (file : Option Text) (sec : Text) (vars : List (Text × Text)) : Except PyErr Text :=
  match newStatus file sec vars with
  | .error e => .error e
  | .ok c => .ok (writeConfig c)

/-- The content of the file if the process dies during `save_status`: before line 781 the old content; `open(statfile, 'w')` empties the file, and then `n` characters have been written.
Models /repo/radvel/driver.py 781-782. -/
def crashedStatus (file : Option Text) (sec : Text) (vars : List (Text × Text)) : Option Nat → Option Text
  | none => file
  | some n =>
    match saveStatus file sec vars with
    | .error _ => file
    | .ok t => some (t.take n)

end Radvel
