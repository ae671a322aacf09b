import Verif.Model.Params

/-!
# `Parameters.tex_labels`, /repo/radvel/model.py 131-174
-/

namespace Radvel

/-- `texdict`, /repo/radvel/model.py 8-35, in the order of the source. -/
def texdict : List (List Char × List Char) :=
  [("per".toList, "P".toList),
   ("logper".toList, "\\ln{P}".toList),
   ("logk".toList, "\\ln{K}".toList),
   ("tc".toList, "T\\rm{conj}".toList),
   ("secosw".toList, "\\sqrt{e}\\cos{\\omega}".toList),
   ("sesinw".toList, "\\sqrt{e}\\sin{\\omega}".toList),
   ("ecosw".toList, "e\\cos{\\omega}".toList),
   ("esinw".toList, "e\\sin{\\omega}".toList),
   ("e".toList, "e".toList),
   ("w".toList, "\\omega".toList),
   ("tp".toList, "T\\rm{peri}".toList),
   ("k".toList, "K".toList),
   ("gamma_".toList, "\\gamma_{\\rm ".toList),
   ("logjit_".toList, "\\ln{\\sigma_{\\rm jit}}_{\\rm ".toList),
   ("jit_".toList, "\\sigma_{\\rm ".toList),
   ("dvdt".toList, "\\dot{\\gamma}".toList),
   ("curv".toList, "\\ddot{\\gamma}".toList),
   ("gp_amp".toList, "\\eta_{1}".toList),
   ("gp_explength".toList, "\\eta_{2}".toList),
   ("gp_per".toList, "\\eta_{3}".toList),
   ("gp_perlength".toList, "\\eta_{4}".toList),
   ("gp_length".toList, "\\eta_{2}".toList),
   ("gp_B".toList, "B".toList),
   ("gp_C".toList, "C".toList),
   ("gp_L".toList, "L".toList),
   ("gp_Prot".toList, "P_{\\rm rot}".toList)]

/-- `texdict.get(parameter, parameter)`, /repo/radvel/model.py 169. -/
def texName (p : List Char) : List Char :=
  match texdict.find? (fun x => x.1 == p) with
  | some x => x.2
  | none => p

/-- `_planet_texlabel`, /repo/radvel/model.py 168-174; `d` is `int(num_planet)`. -/
def planetTexLabel (letters : Option (Dict Nat String)) (p : List Char) (d : Nat) : Except PyErr (List Char) :=
  match letters with
  | some l =>
    match l.get? d with
    | some s => .ok ("$".toList ++ texName p ++ "_{".toList ++ s.toList ++ "}$".toList)
    | none => .error .keyError
  | none => .ok ("$".toList ++ texName p ++ "_{".toList ++ [Char.ofNat (d + 97)] ++ "}$".toList)

/-- Python's `sub in s`. Used for /repo/radvel/model.py 155. -/
def isInfix (sub : List Char) : List Char → Bool
  | [] => sub.isEmpty
  | c :: t => sub.isPrefixOf (c :: t) || isInfix sub t

/-- The label of one key, /repo/radvel/model.py 146-150: the last character is taken as the planet number.
`none`: another branch (instrument, trend, GP keys: lines 151-161), see `labelOf`. -/
def texLabel (letters : Option (Dict Nat String)) (k : List Char) : Option (Except PyErr (List Char)) :=
  match k.getLast? with
  | none => none
  | some n =>
    let p := k.dropLast
    if n.isDigit && (!isInfix "gamma".toList p && !isInfix "jit".toList p) then
      some (planetTexLabel letters p (n.toNat - 48))
    else none

/-- `s.replace(old, new)` for a nonempty `old`: occurrences from left to right; `n` characters remain to be skipped. Used for /repo/radvel/model.py 156-158. -/
def replaceFrom (old new : List Char) : Nat → List Char → List Char
  | _, [] => []
  | n + 1, _ :: t => replaceFrom old new n t
  | 0, c :: t => if old.isPrefixOf (c :: t) then new ++ replaceFrom old new (old.length - 1) t else c :: replaceFrom old new 0 t

/-- `s.replace(old, new)`. Used for /repo/radvel/model.py 156-158. -/
def replaceAll (old new s : List Char) : List Char := replaceFrom old new 0 s

/-- The label made from an entry of `texdict` that occurs in the key, /repo/radvel/model.py 156-158. -/
def entryLabel (k : List Char) (e : List Char × List Char) : List Char :=
  let l := "$".toList ++ replaceAll e.1 e.2 k ++ "}$".toList
  if "gp_".toList.isPrefixOf k then replaceAll "}_".toList ", \\rm ".toList l else l

/-- One turn of the loop over `texdict`, /repo/radvel/model.py 154-158: a later entry overwrites. -/
def entryStep (k : List Char) (acc : Option (List Char)) (e : List Char × List Char) : Option (List Char) :=
  if isInfix e.1 k && decide (e.1.length > 1) then some (entryLabel k e) else acc

/-- The label of one key, /repo/radvel/model.py 145-161. `planetParams` is `self.planet_parameters`. -/
def labelOf (planetParams : List (List Char)) (letters : Option (Dict Nat String)) (k : List Char) : Except PyErr (List Char) :=
  if k = [] then .error .indexError
  else
    match texLabel letters k with
    | some r => r
    | none =>
      match texdict.find? (fun x => x.1 == k) with
      | some x => .ok ("$".toList ++ x.2 ++ "$".toList)
      | none => if k.dropLast ∈ planetParams then .ok k else .ok ((texdict.foldl (entryStep k) none).getD k)

/-- One turn of the loop of `tex_labels`, /repo/radvel/model.py 144-161. -/
def labelTurn (planetParams : List (List Char)) (letters : Option (Dict Nat String)) (d : Dict (List Char) (List Char)) (k : List Char) : Except PyErr (Dict (List Char) (List Char)) := do
  let l ← labelOf planetParams letters k
  return Dict.set d k l

/-- `tex_labels(param_list)`, /repo/radvel/model.py 131-163. -/
def texLabels (planetParams : List (List Char)) (letters : Option (Dict Nat String)) (ks : List (List Char)) : Except PyErr (Dict (List Char) (List Char)) :=
  ks.foldlM (labelTurn planetParams letters) []

end Radvel
