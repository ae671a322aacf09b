import Verif.Model.Markers

/-!
# Which instruments take a colour from the list
-/

namespace Radvel

/-- The caller's format of the instrument has no colour. -/
def EntryNoColour (telfmts : Dict String Fmt) (t : String) : Prop := ∃ f, telfmts.get? t = some f ∧ f.get? "color" = none

/-- The instrument has neither a format of the caller nor a default format. -/
def UnknownTel (telfmts : Dict String Fmt) (t : String) : Prop := telfmts.get? t = none ∧ telfmtsDefault.get? t = none

/-- The instrument takes the next colour of the list. -/
def NeedsColour (telfmts : Dict String Fmt) (t : String) : Prop := EntryNoColour telfmts t ∨ UnknownTel telfmts t

/-- The instruments of the data, each once, that take a colour of the list. -/
noncomputable def needing (telfmts : Dict String Fmt) (tels : List String) : List String :=
  open Classical in tels.dedup.filter (fun t => decide (NeedsColour telfmts t))

/-- Every format of the caller is a dictionary: no key twice. -/
def GoodFmts (telfmts : Dict String Fmt) : Prop := ∀ t f, telfmts.get? t = some f → (Dict.keys f).Nodup

end Radvel
