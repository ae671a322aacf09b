import Verif.Model.PriorText
import Verif.Spec.Labels
import Verif.Props.TexLabels

/-!
# Specification of the texts of priors (C151)
-/

namespace Radvel

/-- The label of a parameter (between the dollar signs). -/
inductive HasLabel : List Char → List Char → Prop
  | planet (p : PName) (n : Nat) : 1 ≤ n → n ≤ 9 → HasLabel (Key.orb p n).render (p.symbol.toList ++ "_{".toList ++ [planetLetter n] ++ "}".toList)
  | instrument (q : InstPar) (x : List Char) : PlainName x → (q.isGP = true → ¬ EndsInDigit x) → '$' ∉ x →
      HasLabel (q.stem.toList ++ x) (q.opening.toList ++ x ++ "}".toList)
  | trend : HasLabel "dvdt".toList "\\dot{\\gamma}".toList
  | curvature : HasLabel "curv".toList "\\ddot{\\gamma}".toList

/-- The parameters a prior is about. -/
def PriorShow.params : PriorShow → List (List Char)
  | .gaussian p _ _ | .hardBounds p _ _ | .jeffreys p _ _ | .modJeffreys p _ _ _ | .baseline p _ _ => [p]
  | .ecc l => l.map (fun x => (Key.orb .e x.1).render)
  | .numerical ps => ps
  | .posK | .secEclipse _ _ | .user _ => []

/-- What a reader finds in the text of a prior, from left to right; `lab` are the labels. -/
def PriorShow.pieces (lab : List Char → List Char) : PriorShow → List (List Char)
  | .gaussian p mu sigma => [lab p, mu, sigma]
  | .hardBounds p a b | .jeffreys p a b => [a, lab p, b]
  | .modJeffreys p a b k => [k, a, lab p, b]
  | .baseline p b d => [lab p, b, d]
  | .ecc l => l.flatMap (fun x => [lab (Key.orb .e x.1).render, x.2])
  | .numerical ps => ps.map lab
  | .posK => ["K".toList, ">0".toList]
  | .secEclipse ts e => [ts, e]
  | .user r => [r]

/-- The pieces occur in the text one after the other. -/
inductive InOrder : List (List Char) → List Char → Prop
  | nil (t : List Char) : InOrder [] t
  | cons (a p r : List Char) (ps : List (List Char)) : InOrder ps r → InOrder (p :: ps) (a ++ p ++ r)

/-- Priors whose text is as described: every parameter has a label, eccentricities are those of the first nine planets, lists of parameters are not empty and name none twice. -/
def PriorShow.Describable (pr : PriorShow) (lab : List Char → List Char) : Prop :=
  (∀ k ∈ pr.params, HasLabel k (lab k)) ∧
  match pr with
  | .ecc l => ∀ x ∈ l, 1 ≤ x.1 ∧ x.1 ≤ 9
  | .numerical ps => ps ≠ [] ∧ ps.Nodup
  | .baseline _ _ _ => False
  | _ => True

end Radvel
