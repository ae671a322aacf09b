import Verif.Model.BasisHeap

/-! # Vocabulary for C14 and C166: objects -/

namespace Radvel

/-- All references are to existing objects. -/
def Refs (n : Nat) (d : Dict Key Nat) : Prop := ∀ x ∈ d, x.2 < n

/-- `p` is a `Parameters` object of the store `s`: what it refers to exists, and its keys are distinct, as in every dictionary. -/
structure Valid (s : Store) (p : HParams) : Prop where
  basis : p.basis < s.bases.length
  refs : Refs s.pars.length p.items
  nodup : p.items.keys.Nodup

end Radvel
