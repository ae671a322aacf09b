import Verif.Spec.GPPlot
import Verif.Lemmas.GPPlot
import Verif.Props.Markers
import Mathlib.Tactic.Abel
import Mathlib.Tactic.Convert

/-!
# C138 and C139: the data and the bands of the GP figure
-/

namespace Radvel

variable {α : Type} [AddCommGroup α]

/-- The telescopes of GP likelihoods. -/
def GPTels (l : List (GPMember α)) (t : String) : Prop := ∃ m ∈ l, m.suffix = t ∧ m.mean ≠ none

theorem plotGpLike_model {g : GPFig α} {ms : List (GPMember α)} {y orbit mu : List α} (hd : GPData g ms y orbit mu) (T : Dict String Fmt) (l : List (GPMember α)) (m : GPMember α) (hm : m ∈ ms)
    (hnew : ∀ m' ∈ l, m'.suffix ≠ m.suffix) (x : List α) (hx : x.length = g.telvec.length) (ci : Nat) (c : Option String) (model : List α) (ci' : Nat)
    (h : plotGpLike T g.subtractGp g.telvec (if g.subtractGp then x else addFor (GPTels l) x (g.telvec.zip mu)) ci m = .ok (c, model, ci')) :
    model = if g.subtractGp then x else addFor (GPTels (l ++ [m])) x (g.telvec.zip mu) := by
  have hz : x.length = (g.telvec.zip mu).length := by rw [List.length_zip, hd.mu_len, Nat.min_self, hx]
  unfold plotGpLike at h
  rcases hmean : m.mean with _ | mean
  · rw [hmean] at h
    cases Except.ok.inj h
    split
    · rfl
    · apply addFor_congr
      intro p _
      refine .inl ⟨?_, ?_⟩
      · rintro ⟨m', h1, h2⟩
        exact ⟨m', by simp [h1], h2⟩
      · rintro ⟨m', h1, h2, h3⟩
        rcases List.mem_append.1 h1 with h1 | h1
        · exact ⟨m', h1, h2, h3⟩
        · rw [List.mem_singleton.1 h1, hmean] at h3; exact absurd rfl h3
  · rw [hmean] at h
    simp only at h
    rcases hb : bandColor T m.suffix ci with e | ⟨c', ci1⟩
    · rw [hb] at h; cases h
    · rw [hb] at h
      cases Except.ok.inj h
      by_cases hs : g.subtractGp = true
      · simp [hs]
      · simp only [hs, Bool.false_eq_true, if_false]
        rw [hd.own m hm mean hmean]
        change addAt m.suffix g.telvec _ (ptsOf (g.telvec.zip mu) m.suffix) = _
        rw [addAt_eq _ _ _ _ (by rw [addFor_length _ _ _ hz, hx]) hd.mu_len, addFor_add _ _ ?_ _ _ hz]
        · apply addFor_congr
          intro p _
          refine .inl ⟨?_, ?_⟩
          · rintro (⟨m', h1, h2⟩ | h1)
            · exact ⟨m', by simp [h1], h2⟩
            · exact ⟨m, by simp, h1.symm, by simp [hmean]⟩
          · rintro ⟨m', h1, h2, h3⟩
            rcases List.mem_append.1 h1 with h1 | h1
            · exact .inl ⟨m', h1, h2, h3⟩
            · rw [List.mem_singleton.1 h1] at h2; exact .inr h2.symm
        · rintro ⟨m', h1, h2, _⟩
          exact hnew m' h1 h2

theorem gp_loop_model {g : GPFig α} {ms : List (GPMember α)} {y orbit mu : List α} (hd : GPData g ms y orbit mu) (T : Dict String Fmt) (x : List α) (hx : x.length = g.telvec.length)
    (l r : List (GPMember α)) (hms : ms = l ++ r) (b : List (String × Option String)) (ci : Nat) (b' : List (String × Option String)) (model : List α) (ci' : Nat)
    (h : r.foldlM (gpBandStep g T) (b, (if g.subtractGp then x else addFor (GPTels l) x (g.telvec.zip mu)), ci) = .ok (b', model, ci')) :
    model = if g.subtractGp then x else addFor (GPTels ms) x (g.telvec.zip mu) := by
  induction r generalizing l b ci with
  | nil =>
    cases Except.ok.inj h
    rw [hms, List.append_nil]
  | cons m r ih =>
    rw [List.foldlM_cons] at h
    have hnew : ∀ m' ∈ l, m'.suffix ≠ m.suffix := by
      have := hd.distinct
      rw [hms, List.map_append, List.nodup_append] at this
      intro m' hm'
      exact this.2.2 _ (List.mem_map.2 ⟨m', hm', rfl⟩) _ (by simp)
    rcases hp : plotGpLike T g.subtractGp g.telvec (if g.subtractGp then x else addFor (GPTels l) x (g.telvec.zip mu)) ci m with e | ⟨c, md, ci1⟩
    · have : gpBandStep g T (b, (if g.subtractGp then x else addFor (GPTels l) x (g.telvec.zip mu)), ci) m = .error e := by unfold gpBandStep; simp only [hp]
      rw [this] at h; cases h
    · have e : gpBandStep g T (b, (if g.subtractGp then x else addFor (GPTels l) x (g.telvec.zip mu)), ci) m = .ok (b ++ [(m.suffix, c)], md, ci1) := by unfold gpBandStep; simp only [hp]
      rw [e] at h
      rw [plotGpLike_model hd T l m (by rw [hms]; simp) hnew x hx ci c md ci1 hp] at h
      exact ih (l ++ [m]) (by rw [hms]; simp) _ _ h

/-- Residuals plus what has been added to the orbit. -/
theorem sum_all {g : GPFig α} {ms : List (GPMember α)} {y orbit mu : List α} (hd : GPData g ms y orbit mu) (x : List α) :
    addFor (GPTels ms) x (g.telvec.zip mu) = List.zipWith (· + ·) x mu := by
  rw [← addFor_all x g.telvec mu hd.mu_len]
  apply addFor_congr
  intro p hp
  by_cases h : GPTels ms p.1
  · exact .inl ⟨fun _ => trivial, fun _ => h⟩
  · refine .inr (hd.zero p hp ?_)
    intro m hm hs
    by_contra hne
    exact h ⟨m, hm, hs, hne⟩

omit [AddCommGroup α] in
theorem zip3 {y o u : List α} {n : Nat} (hy : y.length = n) (ho : o.length = n) (hu : u.length = n) (f k : α → α → α → α) (hfk : ∀ a b c, f a b c = k a b c)
    (F K : List α → List α → List α → List α) (hF : ∀ a b c y o u, F (a :: y) (b :: o) (c :: u) = f a b c :: F y o u) (hK : ∀ a b c y o u, K (a :: y) (b :: o) (c :: u) = k a b c :: K y o u)
    (hF0 : F [] [] [] = []) (hK0 : K [] [] [] = []) : F y o u = K y o u := by
  induction n generalizing y o u with
  | zero =>
    rw [List.length_eq_zero_iff.1 hy, List.length_eq_zero_iff.1 ho, List.length_eq_zero_iff.1 hu, hF0, hK0]
  | succ n ih =>
    obtain ⟨a, y, rfl⟩ := List.exists_cons_of_length_eq_add_one hy
    obtain ⟨b, o, rfl⟩ := List.exists_cons_of_length_eq_add_one ho
    obtain ⟨c, u, rfl⟩ := List.exists_cons_of_length_eq_add_one hu
    rw [hF, hK, hfk, ih (by simpa using hy) (by simpa using ho) (by simpa using hu)]

theorem draw_shows {g : GPFig α} {v v' : GPVars α} {bands : List (String × Option String)} {model : List α} {p : GPPanel α} (h : g.draw v bands model = .ok (p, v')) :
    p.Shows g.telvec (List.zipWith (· + ·) g.rawresid model) ∧ v'.rvmod = (if g.subtractOrbit then v.rvmod else model) ∧ p.bands = bands := by
  unfold GPFig.draw at h
  rcases hm : mtelplot (g.telvec.zip (List.zipWith (· + ·) g.rawresid model)) v.telfmts none with e | m
  · rw [hm] at h; cases h
  · rw [hm] at h
    cases Except.ok.inj h
    exact ⟨(C135_once _ _ _ _ hm).1, rfl, rfl⟩

theorem timeseries_shows {g : GPFig α} {ms : List (GPMember α)} {y orbit mu : List α} (hd : GPData g ms y orbit mu) (v v' : GPVars α) (hv : v.rvmod.length = g.telvec.length) (p : GPPanel α)
    (h : gpTimeseries g ms v = .ok (p, v')) :
    p.Shows g.telvec (List.zipWith (· + ·) g.rawresid (if g.subtractGp then g.model4data v else List.zipWith (· + ·) (g.model4data v) mu)) ∧
    v'.rvmod = if g.subtractOrbit then v.rvmod else if g.subtractGp then g.model4data v else List.zipWith (· + ·) (g.model4data v) mu := by
  have hx : (g.model4data v).length = g.telvec.length := by unfold GPFig.model4data; split <;> simp [hv]
  have hz : (g.model4data v).length = (g.telvec.zip mu).length := by rw [List.length_zip, hd.mu_len, Nat.min_self, hx]
  unfold gpTimeseries at h
  rcases hl : ms.foldlM (gpBandStep g v.telfmts) ([], g.model4data v, 0) with e | ⟨b, model, ci⟩
  · rw [hl] at h; cases h
  · rw [hl] at h
    have e0 : (if g.subtractGp then g.model4data v else addFor (GPTels ([] : List (GPMember α))) (g.model4data v) (g.telvec.zip mu)) = g.model4data v := by
      split
      · rfl
      · rw [addFor_congr (GPTels []) (fun _ => False) _ _ (fun p _ => .inl ⟨fun ⟨_, h, _⟩ => by simp at h, fun h => h.elim⟩), addFor_none _ _ hz]
    have hmod := gp_loop_model hd v.telfmts (g.model4data v) hx [] ms rfl [] 0 b model ci (by rw [e0]; exact hl)
    rw [sum_all hd] at hmod
    obtain ⟨h1, h2, _⟩ := draw_shows h
    rw [hmod] at h1 h2
    exact ⟨h1, h2⟩

/-- C138: a first drawing of the time series shows the measured velocities without their offsets, less the orbit and less the GP mean if the options say so; every one once, with its own instrument. -/
theorem C138_first_partial {g : GPFig α} {ms : List (GPMember α)} {y orbit mu : List α} (hd : GPData g ms y orbit mu) (T : Dict String Fmt) (p : GPPanel α) (v' : GPVars α)
    (h : gpTimeseries g ms ⟨T, orbit⟩ = .ok (p, v')) : p.Shows g.telvec (g.wanted y orbit mu) := by
  have h1 := (timeseries_shows hd ⟨T, orbit⟩ v' hd.orbit_len p h).1
  have e : List.zipWith (· + ·) g.rawresid (if g.subtractGp then g.model4data ⟨T, orbit⟩ else List.zipWith (· + ·) (g.model4data ⟨T, orbit⟩) mu) = g.wanted y orbit mu := by
    rw [hd.resid]
    unfold GPFig.wanted GPFig.model4data
    cases g.subtractGp <;> cases g.subtractOrbit <;> simp only [if_true, if_false, Bool.false_eq_true]
    · exact zip3 hd.y_len hd.orbit_len hd.mu_len (fun a b c => a - (b + c) + (b + c)) (fun a _ _ => a) (fun a b c => by abel)
        (fun y o u => List.zipWith (· + ·) (List.zipWith (· - ·) y (List.zipWith (· + ·) o u)) (List.zipWith (· + ·) o u)) (fun y _ _ => y) (by intros; rfl) (by intros; rfl) rfl rfl
    · exact zip3 hd.y_len hd.orbit_len hd.mu_len (fun a b c => a - (b + c) + (0 + c)) (fun a b _ => a - b) (fun a b c => by abel)
        (fun y o u => List.zipWith (· + ·) (List.zipWith (· - ·) y (List.zipWith (· + ·) o u)) (List.zipWith (· + ·) (o.map (fun _ => 0)) u)) (fun y o _ => List.zipWith (· - ·) y o) (by intros; rfl) (by intros; rfl) rfl rfl
    · exact zip3 hd.y_len hd.orbit_len hd.mu_len (fun a b c => a - (b + c) + b) (fun a _ c => a - c) (fun a b c => by abel)
        (fun y o u => List.zipWith (· + ·) (List.zipWith (· - ·) y (List.zipWith (· + ·) o u)) o) (fun y _ u => List.zipWith (· - ·) y u) (by intros; rfl) (by intros; rfl) rfl rfl
    · exact zip3 hd.y_len hd.orbit_len hd.mu_len (fun a b c => a - (b + c) + 0) (fun a b c => a - b - c) (fun a b c => by abel)
        (fun y o u => List.zipWith (· + ·) (List.zipWith (· - ·) y (List.zipWith (· + ·) o u)) (o.map (fun _ => 0))) (fun y o u => List.zipWith (· - ·) (List.zipWith (· - ·) y o) u) (by intros; rfl) (by intros; rfl) rfl rfl
  rwa [e] at h1

/-- C138 fails for a second drawing of the same object, with neither option: `orbit_model4data` is `self.rvmod` itself, which now has the GP mean in it, so that every velocity is shown with the GP mean added
once more. -/
theorem C138_again_violated {g : GPFig α} {ms : List (GPMember α)} {y orbit mu : List α} (hd : GPData g ms y orbit mu) (h1 : g.subtractGp = false) (h2 : g.subtractOrbit = false) (T : Dict String Fmt)
    (p p' : GPPanel α) (v' v'' : GPVars α) (h : gpTimeseries g ms ⟨T, orbit⟩ = .ok (p, v')) (h' : gpTimeseries g ms v' = .ok (p', v'')) :
    p'.Shows g.telvec (List.zipWith (· + ·) y mu) := by
  have hv := (timeseries_shows hd ⟨T, orbit⟩ v' hd.orbit_len p h).2
  unfold GPFig.model4data at hv
  simp only [h1, h2, Bool.false_eq_true, if_false] at hv
  have hs := (timeseries_shows hd v' v'' (by rw [hv, List.length_zipWith, hd.orbit_len, hd.mu_len, Nat.min_self]) p' h').1
  unfold GPFig.model4data at hs
  simp only [h1, h2, Bool.false_eq_true, if_false] at hs
  rw [hv, hd.resid] at hs
  have e := zip3 hd.y_len hd.orbit_len hd.mu_len (fun a b c => a - (b + c) + (b + c + c)) (fun a _ c => a + c) (fun a b c => by abel)
    (fun y o u => List.zipWith (· + ·) (List.zipWith (· - ·) y (List.zipWith (· + ·) o u)) (List.zipWith (· + ·) (List.zipWith (· + ·) o u) u)) (fun y _ u => List.zipWith (· + ·) y u) (by intros; rfl) (by intros; rfl) rfl rfl
  simp only at e
  rwa [e] at hs

open Classical in
/-- Residuals plus orbit plus the means added so far. -/
theorem sum_some (S R : String → Prop) (tv : List String) (y o mu : List α) (hy : y.length = tv.length) (ho : o.length = tv.length) (hm : mu.length = tv.length)
    (h : ∀ p ∈ tv.zip mu, (S p.1 ↔ ¬ R p.1) ∨ p.2 = 0) :
    List.zipWith (· + ·) (List.zipWith (· - ·) y (List.zipWith (· + ·) o mu)) (addFor S o (tv.zip mu)) = List.zipWith (fun a q => if R q.1 then a - q.2 else a) y (tv.zip mu) := by
  induction tv generalizing y o mu with
  | nil => rw [List.length_eq_zero_iff.1 hy]; rfl
  | cons t tv ih =>
    obtain ⟨a, y, rfl⟩ := List.exists_cons_of_length_eq_add_one hy
    obtain ⟨b, o, rfl⟩ := List.exists_cons_of_length_eq_add_one ho
    obtain ⟨c, mu, rfl⟩ := List.exists_cons_of_length_eq_add_one hm
    have e := ih y o mu (by simpa using hy) (by simpa using ho) (by simpa using hm) (fun p hp => h p (by simp [hp]))
    unfold addFor at e ⊢
    simp only [List.zip_cons_cons, List.zipWith_cons_cons]
    rw [e]
    congr 1
    rcases h (t, c) (by simp) with h | h
    · by_cases hR : R t
      · rw [if_pos hR, if_neg (fun hS => h.1 hS hR)]; abel
      · rw [if_neg hR, if_pos (h.2 hR)]; abel
    · simp only at h
      subst h
      simp

theorem sep_loop {g : GPFig α} {ms : List (GPMember α)} {y orbit mu : List α} (hd : GPData g ms y orbit mu) (h1 : g.subtractGp = false) (h2 : g.subtractOrbit = false) (l r : List (GPMember α)) (hms : ms = l ++ r)
    (acc : List (GPPanel α)) (v : GPVars α) (hv : v.rvmod = addFor (GPTels l) orbit (g.telvec.zip mu)) (ps : List (GPPanel α)) (v' : GPVars α) (h : r.foldlM (gpSepStep g) (acc, v) = .ok (ps, v')) :
    (∀ (i : Nat), i < acc.length → ps[i]? = acc[i]?) ∧
    ∀ a m b, r = a ++ m :: b → ∃ p, ps[acc.length + a.length]? = some p ∧
      p.Shows g.telvec (List.zipWith (· + ·) g.rawresid (addFor (GPTels (l ++ a ++ [m])) orbit (g.telvec.zip mu))) := by
  induction r generalizing l acc v with
  | nil =>
    cases Except.ok.inj h
    exact ⟨fun _ _ => rfl, fun a m b e => by simp at e⟩
  | cons m r ih =>
    rw [List.foldlM_cons] at h
    have hnew : ∀ m' ∈ l, m'.suffix ≠ m.suffix := by
      have := hd.distinct
      rw [hms, List.map_append, List.nodup_append] at this
      intro m' hm'
      exact this.2.2 _ (List.mem_map.2 ⟨m', hm', rfl⟩) _ (by simp)
    have e0 : g.model4data v = if g.subtractGp then orbit else addFor (GPTels l) orbit (g.telvec.zip mu) := by
      unfold GPFig.model4data; simp [h1, h2, hv]
    rcases hs : gpSepStep g (acc, v) m with e | ⟨acc1, v1⟩
    · rw [hs] at h; cases h
    · rw [hs] at h
      unfold gpSepStep at hs
      simp only at hs
      rcases hp : plotGpLike v.telfmts g.subtractGp g.telvec (g.model4data v) 0 m with e | ⟨c, md, ci1⟩
      · rw [hp] at hs; cases hs
      · simp only [hp] at hs
        rw [e0] at hp
        have hmd := plotGpLike_model hd v.telfmts l m (by rw [hms]; simp) hnew orbit hd.orbit_len 0 c md ci1 hp
        simp only [h1, Bool.false_eq_true, if_false] at hmd
        rcases hw : g.draw v [(m.suffix, c)] md with e | ⟨p, v2⟩
        · rw [hw] at hs; cases hs
        · rw [hw] at hs
          cases Except.ok.inj hs
          obtain ⟨w1, w2, _⟩ := draw_shows hw
          simp only [h2, Bool.false_eq_true, if_false] at w2
          obtain ⟨i1, i2⟩ := ih (l ++ [m]) (by rw [hms]; simp) (acc ++ [p]) v1 (by rw [w2, hmd]) h
          refine ⟨?_, ?_⟩
          · intro i hi
            rw [i1 i (by simp; omega), List.getElem?_append_left hi]
          · intro a u b e
            cases a with
            | nil =>
              simp only [List.nil_append, List.cons.injEq] at e
              obtain ⟨rfl, rfl⟩ := e
              refine ⟨p, ?_, by rw [List.append_nil, ← hmd]; exact w1⟩
              have := i1 acc.length (by simp)
              simpa using this
            | cons x a =>
              simp only [List.cons_append, List.cons.injEq] at e
              obtain ⟨rfl, rfl⟩ := e
              obtain ⟨q, q1, q2⟩ := i2 a u b rfl
              refine ⟨q, ?_, ?_⟩
              · rw [List.length_append, List.length_singleton] at q1
                rw [List.length_cons, ← q1]
                congr 1
                omega
              · simpa using q2

open Classical in
/-- C138 with one panel per likelihood and neither option: the panel of a likelihood shows every velocity, but those of the GP likelihoods that come later have the GP mean subtracted. In particular the
velocities of the panel's own instrument are right. Missing: the later ones (`C138_later_violated`). -/
theorem C138_separate_partial {g : GPFig α} {ms : List (GPMember α)} {y orbit mu : List α} (hd : GPData g ms y orbit mu) (h1 : g.subtractGp = false) (h2 : g.subtractOrbit = false) (T : Dict String Fmt)
    (ps : List (GPPanel α)) (v' : GPVars α) (h : gpSeparate g ms ⟨T, orbit⟩ = .ok (ps, v')) (l r : List (GPMember α)) (m : GPMember α) (hms : ms = l ++ m :: r) :
    ∃ p, ps[l.length]? = some p ∧ p.Shows g.telvec (List.zipWith (fun a q => if ∃ m' ∈ r, m'.suffix = q.1 ∧ m'.mean ≠ none then a - q.2 else a) y (g.telvec.zip mu)) := by
  have hz : orbit.length = (g.telvec.zip mu).length := by rw [List.length_zip, hd.mu_len, Nat.min_self, hd.orbit_len]
  have hv : orbit = addFor (GPTels ([] : List (GPMember α))) orbit (g.telvec.zip mu) := by
    rw [addFor_congr (GPTels []) (fun _ => False) _ _ (fun p _ => .inl ⟨fun ⟨_, h, _⟩ => by simp at h, fun h => h.elim⟩), addFor_none _ _ hz]
  obtain ⟨_, hp⟩ := sep_loop hd h1 h2 [] ms rfl [] ⟨T, orbit⟩ hv ps v' h
  obtain ⟨p, p1, p2⟩ := hp l m r hms
  refine ⟨p, by simpa using p1, ?_⟩
  rw [hd.resid, List.nil_append, sum_some (GPTels (l ++ [m])) (fun t => ∃ m' ∈ r, m'.suffix = t ∧ m'.mean ≠ none) _ _ _ _ hd.y_len hd.orbit_len hd.mu_len ?_] at p2
  · convert p2 using 5
  · intro q hq
    by_cases hS : GPTels (l ++ [m]) q.1
    · refine .inl ⟨fun _ => ?_, fun _ => hS⟩
      rintro ⟨m', a1, a2, a3⟩
      obtain ⟨m'', b1, b2, _⟩ := hS
      have hn := hd.distinct
      rw [hms, show l ++ m :: r = (l ++ [m]) ++ r by simp, List.map_append, List.nodup_append] at hn
      exact hn.2.2 _ (List.mem_map.2 ⟨m'', b1, rfl⟩) _ (List.mem_map.2 ⟨m', a1, rfl⟩) (by rw [b2, a2])
    · by_cases hR : ∃ m' ∈ r, m'.suffix = q.1 ∧ m'.mean ≠ none
      · exact .inl ⟨fun h => absurd h hS, fun h => absurd hR h⟩
      · refine .inr (hd.zero q hq ?_)
        intro m' hm' hs
        by_contra hne
        rw [hms, show l ++ m :: r = (l ++ [m]) ++ r by simp] at hm'
        rcases List.mem_append.1 hm' with h' | h'
        · exact hS ⟨m', h', hs, hne⟩
        · exact hR ⟨m', h', hs, hne⟩

/-- A figure of two GP likelihoods `x` and `b`, with one observation each: velocities 10 and 20, orbit 1 and 2, means 3 and 4. -/
def twoGP : GPFig ℤ := ⟨false, false, ["x", "b"], [6, 14]⟩

/-- Its likelihoods. -/
def twoGPLikes : List (GPMember ℤ) := [⟨"x", some [3]⟩, ⟨"b", some [4]⟩]

theorem twoGP_data : GPData twoGP twoGPLikes [10, 20] [1, 2] [3, 4] where
  y_len := rfl
  orbit_len := rfl
  mu_len := rfl
  resid := by decide
  distinct := by decide
  own := by
    intro m hm x hx
    simp only [twoGPLikes, List.mem_cons, List.not_mem_nil, or_false] at hm
    rcases hm with rfl | rfl <;> cases Option.some.inj hx <;> decide
  zero := by
    intro p hp h
    simp only [twoGP, List.zip_cons_cons, List.zip_nil_right, List.mem_cons, List.not_mem_nil, or_false] at hp
    rcases hp with rfl | rfl
    · exact absurd (h ⟨"x", some [3]⟩ (by simp [twoGPLikes]) rfl) (by simp)
    · exact absurd (h ⟨"b", some [4]⟩ (by simp [twoGPLikes]) rfl) (by simp)

/-- Drawing `twoGP` in one panel, twice: the second time 13 and 24 are shown for 10 and 20. -/
theorem twoGP_twice : ∃ p v p' v', gpTimeseries twoGP twoGPLikes ⟨[], [1, 2]⟩ = .ok (p, v) ∧ gpTimeseries twoGP twoGPLikes v = .ok (p', v') ∧
    p.drawn.map (fun d => (d.tel, d.pts)) = [("b", [20]), ("x", [10])] ∧ p'.drawn.map (fun d => (d.tel, d.pts)) = [("b", [24]), ("x", [13])] :=
  ⟨_, _, _, _, rfl, rfl, rfl, rfl⟩

/-- C138 fails with one panel per likelihood: the panel of `x` shows the velocity 20 of `b` as 16, without its GP mean 4; the panel of `b` shows it as 20. -/
theorem C138_later_violated : ∃ p p' v, gpSeparate twoGP twoGPLikes ⟨[], [1, 2]⟩ = .ok ([p, p'], v) ∧
    p.drawn.map (fun d => (d.tel, d.pts)) = [("b", [16]), ("x", [10])] ∧ p'.drawn.map (fun d => (d.tel, d.pts)) = [("b", [20]), ("x", [10])] :=
  ⟨_, _, _, rfl, rfl, rfl⟩

/-! ## The colours of the bands -/

theorem default_good (t : String) (f : Fmt) (h : telfmtsDefault.get? t = some f) : (Dict.keys f).Nodup ∧ (f.get? "color").isSome ∧ (f.get? "label").isSome := by
  have hall : ∀ p ∈ telfmtsDefault, (Dict.keys p.2).Nodup ∧ (p.2.get? "color").isSome ∧ (p.2.get? "label").isSome := by decide +kernel
  exact hall (t, f) (Dict.mem_of_get? _ h)

/-- An instrument with a default format and no other is drawn with it. -/
theorem telplotKw_default (t : String) (f : Fmt) (h : telfmtsDefault.get? t = some f) {k v : String} (hk : f.get? k = some v) : Dict.get? (telplotKw t [] none) k = some v := by
  obtain ⟨hn, _, hl⟩ := default_good t f h
  unfold telplotKw
  simp only [List.isEmpty_nil, if_true, h, Option.getD_some]
  have hhas : (Dict.update [("fmt", "o"), ("capsize", "0"), ("mew", "0"), ("ecolor", "0.6"), ("lw", "1.0"), ("color", "orange")] f).has "label" = true := by
    unfold Dict.has
    rw [Dict.get?_update _ _ hn]
    obtain ⟨c, hc⟩ := Option.isSome_iff_exists.1 hl
    rw [hc]; rfl
  rw [if_pos hhas, Dict.get?_update _ _ hn, hk]
  rfl

theorem bandColor_known {T : Dict String Fmt} {s c : String} {ci ci' : Nat} (h : bandColor T s ci = .ok (c, ci')) (hk : ¬ UnknownTel T s) :
    (∃ f, T.get? s = some f ∧ f.get? "color" = some c) ∨ (T.get? s = none ∧ ∃ f, telfmtsDefault.get? s = some f ∧ f.get? "color" = some c) := by
  unfold bandColor at h
  rcases hT : T.get? s with _ | f
  · rw [hT] at h
    rcases hd : telfmtsDefault.get? s with _ | f
    · exact absurd ⟨hT, hd⟩ hk
    · simp only [hd] at h
      rcases hc : f.get? "color" with _ | c'
      · rw [hc] at h; cases h
      · rw [hc] at h
        cases Except.ok.inj h
        exact .inr ⟨rfl, f, rfl, hc⟩
  · rw [hT] at h
    simp only at h
    rcases hc : f.get? "color" with _ | c'
    · rw [hc] at h; cases h
    · rw [hc] at h
      cases Except.ok.inj h
      exact .inl ⟨f, rfl, hc⟩

theorem gp_loop_bands (g : GPFig α) (T : Dict String Fmt) (ms : List (GPMember α)) (acc out : List (String × Option String) × List α × Nat) (h : ms.foldlM (gpBandStep g T) acc = .ok out) :
    ∃ bs, out.1 = acc.1 ++ bs ∧ bs.map Prod.fst = ms.map GPMember.suffix ∧ ∀ s c, (s, some c) ∈ bs → ∃ ci ci', bandColor T s ci = .ok (c, ci') := by
  induction ms generalizing acc with
  | nil =>
    cases Except.ok.inj h
    exact ⟨[], by simp, rfl, by simp⟩
  | cons m ms ih =>
    rw [List.foldlM_cons] at h
    rcases hs : gpBandStep g T acc m with e | acc1
    · rw [hs] at h; cases h
    · rw [hs] at h
      obtain ⟨bs, h1, h2, h3⟩ := ih acc1 h
      unfold gpBandStep at hs
      rcases hp : plotGpLike T g.subtractGp g.telvec acc.2.1 acc.2.2 m with e | ⟨c, md, ci1⟩
      · rw [hp] at hs; cases hs
      · rw [hp] at hs
        cases Except.ok.inj hs
        refine ⟨(m.suffix, c) :: bs, by rw [h1]; simp, by simp [h2], ?_⟩
        intro s k hk
        rcases List.mem_cons.1 hk with e | hk
        · simp only [Prod.mk.injEq] at e
          obtain ⟨rfl, rfl⟩ := e
          unfold plotGpLike at hp
          rcases hmean : m.mean with _ | mean
          · rw [hmean] at hp; cases Except.ok.inj hp
          · simp only [hmean] at hp
            rcases hb : bandColor T m.suffix acc.2.2 with e | ⟨c', ci'⟩
            · rw [hb] at hp; cases hp
            · rw [hb] at hp
              simp only [Except.ok.injEq, Prod.mk.injEq, Option.some.injEq] at hp
              exact ⟨_, ci', by rw [hb, hp.1]⟩
        · exact h3 s k hk

/-- C139 in part: in one panel, the band of an instrument with a format of the caller or a default format has the colour of its points. Missing: unknown instruments (`C139_order_violated`,
`C139_separate_violated`) and formats without a colour (`C139_key_violated`). -/
theorem C139_known_partial (g : GPFig α) (ms : List (GPMember α)) (T : Dict String Fmt) (hg : GoodFmts T) (rvmod : List α) (p : GPPanel α) (v' : GPVars α) (h : gpTimeseries g ms ⟨T, rvmod⟩ = .ok (p, v'))
    (s c : String) (hs : (s, some c) ∈ p.bands) (hk : ¬ UnknownTel T s) (d : Drawn α) (hd : d ∈ p.drawn) (hds : d.tel = s) : d.kw.get? "color" = some c := by
  subst hds
  unfold gpTimeseries at h
  rcases hl : ms.foldlM (gpBandStep g T) ([], g.model4data ⟨T, rvmod⟩, 0) with e | ⟨b, model, ci⟩
  · simp only [hl] at h; cases h
  · simp only [hl] at h
    obtain ⟨bs, h1, _, h3⟩ := gp_loop_bands g T ms _ _ hl
    simp only [List.nil_append] at h1
    unfold GPFig.draw at h
    rcases hm : mtelplot (g.telvec.zip (List.zipWith (· + ·) g.rawresid model)) T none with e | m
    · simp only [hm] at h; cases h
    · simp only [hm] at h
      cases Except.ok.inj h
      simp only at hs hd
      rw [h1] at hs
      obtain ⟨i, i', hb⟩ := h3 _ _ hs
      rcases bandColor_known hb hk with ⟨f, hf, hc⟩ | ⟨hT, f, hf, hc⟩
      · exact C135_own _ T hg m hm d hd f hf _ _ hc
      · obtain ⟨_, hdr, _, _⟩ := mtelplot_ok _ T m hm
        rw [hdr, mem_drawAll] at hd
        obtain ⟨a, t, r, _, rfl⟩ := hd
        simp only at hT hf ⊢
        have : fmtFor T (0 + takesAll T a) t = [] := by
          unfold fmtFor
          rw [hT]
          have hh : telfmtsDefault.has t = true := by unfold Dict.has; rw [hf]; rfl
          simp [hh]
        rw [this]
        exact telplotKw_default t f hf hc

/-- C139 fails for unknown instruments in one panel: bands take colours in the order of the likelihoods, points in the order of the names. The band of `x` is orange, as the points of `b`. -/
theorem C139_order_violated : ∃ p v, gpTimeseries twoGP twoGPLikes ⟨[], [1, 2]⟩ = .ok (p, v) ∧ p.bands = [("x", some "orange"), ("b", some "purple")] ∧
    p.drawn.map (fun d => (d.tel, d.kw.get? "color")) = [("b", some "orange"), ("x", some "purple")] :=
  ⟨_, _, rfl, rfl, by decide +kernel⟩

/-- C139 fails for unknown instruments with one panel per likelihood: the count of colours is not kept, so both bands are orange, and the points of `x` are purple in both panels. -/
theorem C139_separate_violated : ∃ p p' v, gpSeparate twoGP twoGPLikes ⟨[], [1, 2]⟩ = .ok ([p, p'], v) ∧ p.bands = [("x", some "orange")] ∧ p'.bands = [("b", some "orange")] ∧
    p.drawn.map (fun d => (d.tel, d.kw.get? "color")) = [("b", some "orange"), ("x", some "purple")] ∧ p'.drawn.map (fun d => (d.tel, d.kw.get? "color")) = [("b", some "orange"), ("x", some "purple")] :=
  ⟨_, _, _, rfl, rfl, rfl, by decide +kernel, by decide +kernel⟩

/-- C139 fails for a format without colour: where `mtelplot` takes the next colour of the list, the band raises `KeyError`. -/
theorem C139_key_violated (g : GPFig α) (m : GPMember α) (ms : List (GPMember α)) (v : GPVars α) (hm : m.mean ≠ none) (hE : EntryNoColour v.telfmts m.suffix) :
    gpTimeseries g (m :: ms) v = .error .keyError ∧ gpSeparate g (m :: ms) v = .error .keyError := by
  obtain ⟨f, hf, hc⟩ := hE
  obtain ⟨mean, hmean⟩ := Option.ne_none_iff_exists'.1 hm
  have hb : ∀ ci, bandColor v.telfmts m.suffix ci = .error .keyError := by intro ci; unfold bandColor; rw [hf]; simp only [hc]
  have hp : ∀ model ci, plotGpLike v.telfmts g.subtractGp g.telvec model ci m = .error .keyError := by
    intro model ci; unfold plotGpLike; rw [hmean]; simp only [hb]
  constructor
  · unfold gpTimeseries
    rw [List.foldlM_cons]
    have : gpBandStep g v.telfmts ([], g.model4data v, 0) m = .error .keyError := by unfold gpBandStep; simp only [hp]
    rw [this]
    rfl
  · unfold gpSeparate
    rw [List.foldlM_cons]
    have : gpSepStep g ([], v) m = .error .keyError := by unfold gpSepStep; simp only [hp]
    rw [this]
    rfl

/-- Non-vacuity: a format with a colour, a default format, and a format without a colour. -/
example : (∃ p v, gpTimeseries (⟨false, false, ["j", "b"], [6, 14]⟩ : GPFig ℤ) [⟨"j", some [3]⟩, ⟨"b", some [4]⟩] ⟨[("b", [("color", "red")])], [1, 2]⟩ = .ok (p, v) ∧
      ("j", some "k") ∈ p.bands ∧ ("b", some "red") ∈ p.bands ∧ p.drawn.map Drawn.tel = ["b", "j"]) ∧
    ¬ UnknownTel [("b", [("color", "red")])] "j" ∧ ¬ UnknownTel [("b", [("color", "red")])] "b" ∧ EntryNoColour [("b", [("fmt", "s")])] "b" :=
  ⟨⟨_, _, rfl, by decide +kernel, by decide +kernel, rfl⟩, fun h => absurd h.2 (by decide +kernel), fun h => absurd h.1 (by decide), ⟨_, rfl, rfl⟩⟩

end Radvel
