import Verif.Lemmas.KeplerBox

/-!
# The corrections of the C solver, checked on boxes

`stepI` bounds one correction of the Kepler solvers; `farOk` uses it on the right of the solution, far from it, and `startOk` for the first two corrections of the C solver, which starts at the mean anomaly.
-/

namespace Radvel
open Iv

/-- Division by a positive whole number. -/
def Iv.divn (i : Iv) (n : Int) : Iv := let i := i; ⟨i.a / n, -((-i.b) / n)⟩

def Iv.neg (i : Iv) : Iv := let i := i; ⟨-i.b, -i.a⟩

/-- One number. -/
def ivPt (x : Int) : Iv := ⟨x, x⟩

/-- The sine of `x / ivS`, for `0 ≤ x / ivS ≤ 3.15`: the Taylor polynomial of degree 13, and what is left out. -/
def sinI (x : Int) : Iv :=
  let z := x * x
  let n := x * (11002193422793946610709248869714169050762871437509534265097570744858130231643340800 - z * (1667739437652008838799588203636656703681315084017953611252107103436800 - z * (75840009124113241286958700749740123850702506570903715840 - z * (1642287773352179259290111699117571330539520 - z * (20745167064587036637957980160 - z * (171523813933056 - z))))))
  ⟨n / 11002193422793946610709248869714169050762871437509534265097570744858130231643340800 - 24, -((-n) / 11002193422793946610709248869714169050762871437509534265097570744858130231643340800)⟩

/-- The cosine of `x / ivS`, for `0 ≤ x / ivS ≤ 3.15`: the Taylor polynomial of degree 14, and what is left out. -/
def cosI (x : Int) : Iv :=
  let z := x * x
  let n := 169358554391636025076922301860367998251977357683758951166719090783991913744547518210701996851200 - z * (77015353959557626274964742087999183355340100062566739855682995214006911621503385600 - z * (5837088031782030935798558712728298462884602794062837639382374862028800 - z * (176960021289597563002903635082726955651639181998775336960 - z * (2874003603366313703757695473455749828444160 - z * (29043233890421851293141172224 - z * (200111116255232 - z))))))
  ⟨n / 161512903586994195057794858799331663372018201526411963621825304779045022720859068117811200, -((-n) / 161512903586994195057794858799331663372018201526411963621825304779045022720859068117811200) + 5⟩

/-- The sine on an interval from the sines at its ends. -/
def sinR (E sa sb : Iv) : Iv := if E.b ≤ 1647099 then ⟨sa.a, sb.b⟩ else if 1647099 < E.a then ⟨sb.a, sa.b⟩ else ⟨min2 sa.a sb.a, 1048576⟩

/-- The cosine on an interval up to half a turn. -/
def cosR (E ca cb : Iv) : Iv := ⟨if E.b ≤ 3294198 then cb.a else -1048576, ca.b⟩

/-- What the correction does to the residual, as a factor. -/
def stepR (ip q r s s1 ka iB i1 d d2 : Iv) : Iv :=
  let w1 : Iv := ⟨(ivOne.sub (d2.divn 30)).a, 1048576⟩; let w2 : Iv := ⟨(ivOne.sub (d2.divn 42)).a, 1048576⟩;
  (((s.sq.sub (s1.mul ka)).mul iB.sq).mul ((s.mul i1).sub ((ka.mul (s1.add iB)).mul i1.sq))).add
    (((d.mul d2).mul (iB.mul ip)).mul (((q.mul w1).divn 24).add (((r.mul d).mul w2).divn 120)))

/-- The slope after a correction `d`. -/
def slopeI (p q r d d2 : Iv) : Iv :=
  let w1 : Iv := ⟨(ivOne.sub (d2.divn 6)).a, 1048576⟩; let w2 : Iv := ⟨(ivOne.sub (d2.divn 12)).a, 1048576⟩;
  (p.add ((q.mul d).mul w1)).add (((r.mul d2).divn 2).mul w2)

/-- A correction: `A` is the residual divided by the slope, `ip` the reciprocal of the slope; `k` is given the factor of the residual, the correction and its square. -/
def stepI (A ip q r : Iv) (k : Iv → Iv → Iv → Bool) : Bool :=
  let t := ((A.mul q).mul ip);
  if t.b < 2097152 then
    let s : Iv := ⟨t.a * 1048576 / (2097152 - t.a), -((-(t.b * 1048576)) / (2097152 - t.b))⟩;
    let s1 := (ivOne.add s);
    let ka := (((r.mul ip).mul (A.mul s1).sq).divn 6);
    let B := ((ivOne.sub s).add ka);
    if 0 < B.a ∧ 0 < s1.a then
      let iB := B.inv;
      let d := (A.mul iB).neg;
      let d2 := d.sq;
      let R := (stepR ip q r s s1 ka iB s1.inv d d2); k R d d2
    else false
  else false

/-- The residual is small relative to the slope. -/
def closeI (f p : Iv) : Bool := decide (0 < p.a) && let m := max2 (-f.a) f.b; decide (100 * (m * m) * 1048576 ≤ 9 * (p.a * p.a * p.a))

/-- On the right of the solution: the step for the eccentricities `e`, the anomalies `E`, the residuals divided by the slopes `A`. -/
def farOk (e E A : Iv) : Bool :=
  let q := (e.mul (sinR E (sinI E.a) (sinI E.b)));
  let r := (e.mul (cosR E (cosI E.a) (cosI E.b)));
  let p := (ivOne.sub r);
  decide (0 < p.a) && let ip := p.inv;
  let G := (((E.sub q).sub (ivPt 41943)).mul ip);
  decide (100 * A.b * A.b ≤ 9 * p.a * 1048576) || decide (G.b < A.a) ||
    let A2 := (A.meet ⟨0, G.b⟩);
    stepI A2 ip q r fun R d _ =>
      decide (0 < E.a + d.a) && decide (3 * R.b ≤ 1048576) && decide (-1048576 ≤ 3 * R.a) &&
        (decide (0 ≤ R.a) || let f := ((R.mul A2).mul p); let p1 := (ivOne.sub (e.mul ⟨-1048576, (cosI (E.a + d.a)).b⟩)); closeI ⟨f.a, 0⟩ p1)

/-- The correction at the mean anomaly as a function of `u` and the slope `p`. -/
def startD (u p : Iv) : Iv :=
  let h (x : Int) : Iv := (ivPt x).inv.add ((ivPt x).mul ((ivPt x).sq.add (ivPt 2097152)).inv)
  let k (x : Int) : Iv := (ivPt x).mul ((ivPt x).sq.add (ivPt 2097152)).sq.inv
  let K : Iv := (if 856200 ≤ u.a then ⟨(k u.b).a, (k u.a).b⟩ else u.mul (u.sq.add (ivPt 2097152)).sq.inv);
  Iv.add ⟨(h u.b).a, (h u.a).b⟩ ((((p.inv.sub ivOne).mul K).mul (ivPt 2097152)).divn 3)

/-- After the correction `d` at the mean anomaly: the residual `f`, the slope `p1` and its derivative `q1`. -/
def startEnd (e2 u p f p1 q1 : Iv) : Bool :=
  closeI f p1 || (decide (43981471744 ≤ u.a * p.a) && decide (906914 ≤ e2.a) && decide (0 ≤ f.a) && decide (0 ≤ q1.a)) ||
    let ip := p1.inv; let r1 := (ivOne.sub p1); let A := (f.mul ip);
    stepI A ip q1 r1 fun R d d2 => let f2 := (R.mul f); let p2 := ((slopeI p1 q1 r1 d d2).meet ⟨10485, 2097152⟩); closeI f2 p2

/-- The first two corrections from the mean anomaly: `u` is `e sin M` divided by the slope `p`. -/
def startOk (u p : Iv) : Bool :=
  let e2 := ((ivOne.sub p).sq.add (u.mul p).sq);
  decide (1027711 < e2.a) || decide (e2.b < 377487) || decide (100 * u.b * u.b ≤ 9 * p.a * 1048576) ||
  (decide (0 < u.a) &&
    let D := (startD u p); decide (0 < D.a) &&
    let d := D.inv; decide (d.b ≤ 3294198) &&
    let sa := (sinI d.a); let sb := (sinI d.b); let ca := (cosI d.a); let cb := (cosI d.b);
    let f : Iv := ⟨(((ivPt d.a).sub sa).add (p.mul (sa.sub (u.mul ca)))).a, (((ivPt d.b).sub sb).add (p.mul (sb.sub (u.mul cb)))).b⟩;
    let C := (cosR d ca cb); let S := (sinR d sa sb);
    let p1 := (((ivOne.sub C).add (p.mul (C.add (u.mul S)))).meet ⟨10485, 2097152⟩);
    let q1 := (S.add (p.mul ((u.mul C).sub S)));
    startEnd e2 u p f p1 q1)

/-- `farOk` on all boxes of a subdivision. -/
def farCover : Cut → Iv → Iv → Iv → Bool
  | .o, e, E, A => farOk e E A
  | .z l r, e, E, A => (let i := e.lower; farCover l i E A) && let i := e.upper; farCover r i E A
  | .x l r, e, E, A => (let i := E.lower; farCover l e i A) && let i := E.upper; farCover r e i A
  | .s l r, e, E, A => (let i := A.lower; farCover l e E i) && let i := A.upper; farCover r e E i

/-- `startOk` on all boxes of a subdivision. -/
def startCover : Cut → Iv → Iv → Bool
  | .o, u, p => startOk u p
  | .z l r, u, p => (let i := u.lower; startCover l i p) && let i := u.upper; startCover r i p
  | .x l r, u, p => (let i := p.lower; startCover l u i) && let i := p.upper; startCover r u i
  | .s _ _, _, _ => false

end Radvel
