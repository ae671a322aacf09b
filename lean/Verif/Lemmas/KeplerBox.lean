import Verif.Lemmas.Interval

/-!
# The inequality behind C167, checked on boxes

The step of the Kepler solvers from the right of the solution, in the scaled variables `z = E²`, `x = (1 - e) / E²` and `s` (from `f f'' / f'²`): `boxOk` bounds the step on a box with interval arithmetic, and `coverOk` does
so on a subdivision.
-/

namespace Radvel
open Iv

def ivOne : Iv := ⟨1048576, 1048576⟩
def ivHalf : Iv := ⟨524288, 524288⟩

/-- `1 - s + k s²` on a box. -/
def ivB (k s : Iv) : Iv :=
  if 2 * k.b * s.b ≤ 1099511627776 ∧ 0 ≤ k.a ∧ 0 ≤ s.a then ⟨1048576 - s.b + k.a * (s.b * s.b / 1048576) / 1048576, 1048576 - s.a + up (k.b * up (s.a * s.a))⟩
  else (ivOne.sub s).add (k.mul (s.mul s))

/-- The last part of `boxOk`. -/
def boxEnd (Z X T e P iP Q d1 k i1 B : Iv) : Bool :=
  let iB := B.inv
  let d := d1.mul iB
  let m2 := (ivOne.sub d).sq
  let P1 := X.add ((e.mul m2).mul (ivHalf.sub ((Z.mul m2).mul (frac 1 24))))
  let iB2 := iB.mul iB
  let g := (((T.mul (T.mul T)).mul iB2).mul (i1.sub k)).mul (ivOne.sub ((k.mul T).mul (ivOne.add (i1.mul iB))))
  let rho := (((Z.mul Q).mul (d1.mul (d1.mul d1))).mul iP).mul ((iB2.mul iB2).mul (frac 1 24))
  let lo := g.a - rho.b
  let f1 := up (up (-lo * d1.b) * P.b)
  decide (d.b ≤ 2097152) && decide (g.b + rho.b ≤ 349525) && (decide (0 ≤ lo) || (decide (-349525 ≤ lo) && decide (0 < P1.a) && decide (100 * f1 * f1 * 1048576 ≤ 9 * (P1.a * P1.a * P1.a))))

/-- The second part of `boxOk`. -/
def boxMid (Z X T e P iP Q iQ r i1 d1 R : Iv) : Bool :=
  if 100 * d1.b * d1.b ≤ 9 * P.a * 1048576 then true
  else
    let k := ((r.mul R).mul iQ).mul (frac 2 3)
    let B := ivB k T
    decide (0 < B.a) && boxEnd Z X T e P iP Q d1 k i1 B

/-- The inequality on a box. -/
def boxOk (Z X T : Iv) : Bool :=
  let xz := X.mul Z
  if 1048576 - xz.a < 629145 then true
  else
    let e := (ivOne.sub xz).meet ⟨629145, 1048576⟩
    let z2 := Z.mul Z
    let z6 := ivOne.sub (Z.mul (frac 1 6))
    let s1 : Iv := ⟨z6.a, (z6.add (z2.mul (frac 1 120))).b⟩
    let z24 := ivHalf.sub (Z.mul (frac 1 24))
    let c2 : Iv := ⟨z24.a, (z24.add (z2.mul (frac 1 720))).b⟩
    let co := ivOne.sub (Z.mul c2)
    let P := ((X.mul co).add c2).meet (X.add (e.mul c2))
    let iP := P.inv
    let G := ivOne.sub ((e.mul ((frac 1 3).sub (Z.mul (frac 1 30)))).mul iP)
    let Q := e.mul s1
    let r := e.mul co
    let iQ := Q.inv
    let i1 := (ivOne.add T).inv
    let t := (frac 2 1).sub (i1.add i1)
    let R := P.mul iQ
    let d1 := t.mul R
    decide (0 < P.a) && decide (0 < Q.a) && (decide (G.b < d1.a) || boxMid Z X T e P iP Q iQ r i1 (d1.meet ⟨0, G.b⟩) R)

/-- A subdivision. -/
inductive Cut
  | o
  | z (l r : Cut)
  | x (l r : Cut)
  | s (l r : Cut)

/-- The lower and the upper half. -/
def Iv.lower (i : Iv) : Iv := ⟨i.a, (i.a + i.b) / 2⟩
def Iv.upper (i : Iv) : Iv := ⟨(i.a + i.b) / 2, i.b⟩

/-- The inequality on all boxes of a subdivision. -/
def coverOk : Cut → Iv → Iv → Iv → Bool
  | .o, Z, X, T => boxOk Z X T
  | .z l r, Z, X, T => coverOk l Z.lower X T && coverOk r Z.upper X T
  | .x l r, Z, X, T => coverOk l Z X.lower T && coverOk r Z X.upper T
  | .s l r, Z, X, T => coverOk l Z X T.lower && coverOk r Z X T.upper

end Radvel
