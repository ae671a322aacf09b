import Verif.Model.Status

/-! Specification of the status file: which names and values can be stored, and what a sequence of saves should leave. -/

namespace Radvel

/-- A value on one line without spaces around it. -/
structure PlainValue (v : Text) : Prop where
  oneLine : '\n' ∉ v ∧ '\r' ∉ v
  stripped : strip v = v

/-- An option name that can be written to the file. -/
structure PlainOption (k : Text) : Prop where
  nonempty : k ≠ []
  value : PlainValue k
  lowered : lower k = k
  delims : '=' ∉ k ∧ ':' ∉ k
  start : k.head? ≠ some '#' ∧ k.head? ≠ some ';' ∧ k.head? ≠ some '['

/-- A section name that can be written to the file. -/
structure PlainSection (s : Text) : Prop where
  nonempty : s ≠ []
  oneLine : '\n' ∉ s ∧ '\r' ∉ s
  bracket : ']' ∉ s
  notDefault : s ≠ "DEFAULT".toList

/-- A configuration that can be written to the file. -/
structure PlainConfig (c : Config) : Prop where
  sections : c.keys.Nodup
  names : ∀ s d, (s, d) ∈ c → PlainSection s
  options : ∀ s d, (s, d) ∈ c → d.keys.Nodup
  plain : ∀ s d, (s, d) ∈ c → ∀ k v, (k, v) ∈ d → PlainOption k ∧ PlainValue v

/-- One call of `save_status`: the section and the options. -/
structure Save where
  section_ : Text
  vars : List (Text × Text)

/-- A save whose names and values can be stored; option names may have capital letters. -/
structure Save.Plain (x : Save) : Prop where
  name : PlainSection x.section_
  vars : ∀ o ∈ x.vars, PlainOption (lower o.1) ∧ PlainValue o.2

/-- The last value saved for an option, if any. -/
def lastSaved (saves : List Save) (s k : Text) : Option Text :=
  (((saves.filter fun x => x.section_ = s).flatMap Save.vars).reverse.find? fun o => lower o.1 = k).map Prod.snd

/-- A sequence of calls of `save_status` on one file. -/
def saveSeq : Option Text → List Save → Except PyErr (Option Text)
  | file, [] => .ok file
  | file, x :: t =>
    match saveStatus file x.section_ x.vars with
    | .error e => .error e
    | .ok text => saveSeq (some text) t

end Radvel
