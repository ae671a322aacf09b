import Verif.Model.Posterior
import Verif.Lemmas.Dict
import Verif.Lemmas.Like

/-! Helper lemmas for `Verif/Props/Posterior.lean`. -/

namespace Radvel

theorem priorSum_fold (s : VState ℝ) (priors : List Prior) (vals : List Fl)
    (h : List.Forall₂ (fun (p : Prior) v => p.call s none = .ok v) priors vals) (acc : Fl) :
    priors.foldlM (priorStep s) acc = .ok (acc + vals.sum) := by
  induction h generalizing acc with
  | nil => rw [List.sum_nil, add_zero]; rfl
  | cons h1 h2 ih =>
    rw [List.foldlM_cons, priorStep, h1]
    simp only [bind, Except.bind]
    rw [ih, List.sum_cons, add_assoc]

theorem priorSum_eq (s : VState ℝ) (priors : List Prior) (vals : List Fl)
    (h : List.Forall₂ (fun (p : Prior) v => p.call s none = .ok v) priors vals) : priorSum s priors = .ok vals.sum := by
  unfold priorSum
  rw [priorSum_fold s priors vals h, zero_add]

theorem extra_fold (s : VState ℝ) (priors : List Prior) (vals : List Fl)
    (h : List.Forall₂ (fun (p : Prior) v => p.call s (some true) = .ok v) (priors.filter Prior.extraConstraint) vals) (acc : Fl) :
    priors.foldlM (extraStep s) acc = .ok (acc + vals.sum) := by
  induction priors generalizing acc vals with
  | nil => cases h; rw [List.sum_nil, add_zero]; rfl
  | cons p t ih =>
    rw [List.foldlM_cons, extraStep]
    by_cases hp : p.extraConstraint = true
    · rw [List.filter_cons_of_pos hp] at h
      cases h with
      | cons h1 h2 =>
        rw [if_pos hp, h1]
        simp only [bind, Except.bind]
        rw [ih _ h2, List.sum_cons, add_assoc]
    · rw [List.filter_cons_of_neg hp] at h
      rw [if_neg hp]
      simp only [bind, Except.bind]
      exact ih _ h _

theorem extraLikelihood_eq (s : VState ℝ) (priors : List Prior) (vals : List Fl)
    (h : List.Forall₂ (fun (p : Prior) v => p.call s (some true) = .ok v) (priors.filter Prior.extraConstraint) vals) :
    extraLikelihood s priors = .ok vals.sum := by
  unfold extraLikelihood
  rw [extra_fold s priors vals h, zero_add]

/-- Priors with attribute `param = k`. -/
def withParam (priors : List Prior) (k : Key) : List Prior := priors.filter (fun p => decide (p.param? = some k))

theorem getPriorDict_fold (priors : List Prior) (d : Dict Key (List Prior)) (hd : d.keys.Nodup) (hne : ∀ k, d.get? k ≠ some []) :
    let f := fun (d : Dict Key (List Prior)) (p : Prior) => match p.param? with
      | none => d
      | some k => match d.get? k with
        | none => d.set k [p]
        | some l => d.set k (l ++ [p])
    (priors.foldl f d).keys.Nodup ∧ (∀ k, (priors.foldl f d).get? k ≠ some []) ∧
      ∀ k, ((priors.foldl f d).get? k).getD [] = (d.get? k).getD [] ++ withParam priors k := by
  intro f
  induction priors generalizing d with
  | nil => exact ⟨hd, hne, fun k => by simp [withParam]⟩
  | cons p t ih =>
    rw [List.foldl_cons]
    cases hp : p.param? with
    | none =>
      have hf : f d p = d := by simp [f, hp]
      rw [hf]
      obtain ⟨a, b, c⟩ := ih d hd hne
      exact ⟨a, b, fun k => by rw [c k]; simp [withParam, hp]⟩
    | some k0 =>
      have key : f d p = d.set k0 ((d.get? k0).getD [] ++ [p]) := by
        simp only [f, hp]
        cases hg : d.get? k0 <;> simp
      rw [key]
      obtain ⟨a, b, c⟩ := ih (d.set k0 ((d.get? k0).getD [] ++ [p])) (Dict.nodup_keys_set _ _ _ hd) (by
        intro k
        rw [Dict.get?_set]
        split
        · simp
        · exact hne k)
      refine ⟨a, b, fun k => ?_⟩
      rw [c k, Dict.get?_set]
      by_cases hk : k0 = k
      · subst hk
        simp [withParam, hp]
      · simp [withParam, hp, hk]

theorem getPriorDict_spec (priors : List Prior) :
    (getPriorDict priors).keys.Nodup ∧
    (∀ k, withParam priors k = [] → (getPriorDict priors).get? k = none) ∧
    (∀ k, withParam priors k ≠ [] → (getPriorDict priors).get? k = some (withParam priors k)) := by
  obtain ⟨a, b, c⟩ := getPriorDict_fold priors [] (by simp [Dict.keys]) (by simp)
  refine ⟨a, ?_, ?_⟩
  · intro k hk
    have h1 := c k
    have h2 := b k
    rw [hk] at h1
    unfold getPriorDict
    revert h1 h2
    generalize Dict.get? (List.foldl _ _ _) k = o
    cases o with
    | none => simp
    | some l => simp
  · intro k hk
    have h1 := c k
    unfold getPriorDict
    revert h1
    generalize Dict.get? (List.foldl _ _ _) k = o
    cases o with
    | none => intro h1; simp at h1; exact absurd h1.symm (by simpa using hk)
    | some l => intro h1; simpa using h1

theorem extra_of_param {p : Prior} {k : Key} (h : p.param? = some k) : p.extraConstraint = false := by
  cases p <;> simp [Prior.param?] at h <;> rfl

theorem mem_withParam {priors : List Prior} {k : Key} {p : Prior} : p ∈ withParam priors k ↔ p ∈ priors ∧ p.param? = some k := by
  simp [withParam]

theorem forM_ok_iff {α : Type} (l : List α) (f : α → Except PyErr Unit) : l.forM f = .ok () ↔ ∀ x ∈ l, f x = .ok () := by
  induction l with
  | nil => simp [pure, Except.pure]
  | cons a t ih =>
    show (f a >>= fun _ => t.forM f) = .ok () ↔ _
    cases h : f a with
    | error e => simp [bind, Except.bind, h]
    | ok u => cases u; simp only [bind, Except.bind, h, List.forall_mem_cons, true_and]; exact ih

theorem filter_withParam (priors : List Prior) (k : Key) : (withParam priors k).filter (fun p => !p.extraConstraint) = withParam priors k := by
  apply List.filter_eq_self.2
  intro p hp
  rw [extra_of_param (mem_withParam.1 hp).2]; rfl

theorem checkFree_iff (priors : List Prior) (names : List Key) :
    checkFree (getPriorDict priors) names = .ok () ↔ ∀ k ∈ names, (withParam priors k).length = 1 := by
  unfold checkFree
  rw [forM_ok_iff]
  obtain ⟨_, hn, hs⟩ := getPriorDict_spec priors
  refine forall₂_congr fun k hk => ?_
  by_cases h : withParam priors k = []
  · simp [hn k h, h]
  · rw [hs k h]
    simp only [Option.getD_some, filter_withParam]
    have : (withParam priors k).length ≠ 0 := by simpa using h
    rw [if_neg this, if_neg this]
    split
    · constructor
      · intro h; cases h
      · intro h; omega
    · constructor
      · intro _; omega
      · intro _; rfl

theorem checkFixed_iff (priors : List Prior) (names : List Key) :
    checkFixed (getPriorDict priors) names = .ok () ↔ ∀ p ∈ priors, ∀ k, p.param? = some k → k ∈ names := by
  unfold checkFixed
  rw [forM_ok_iff]
  obtain ⟨hd, hn, hs⟩ := getPriorDict_spec priors
  constructor
  · intro h p hp k hk
    have hne : withParam priors k ≠ [] := by
      intro he
      have := mem_withParam.2 ⟨hp, hk⟩
      rw [he] at this; cases this
    have := h (k, withParam priors k) (Dict.mem_of_get? _ (hs k hne))
    rw [forM_ok_iff] at this
    have := this p (mem_withParam.2 ⟨hp, hk⟩)
    by_contra hc
    rw [if_pos ⟨hc, extra_of_param hk⟩] at this
    cases this
  · rintro h ⟨k, l⟩ hm
    rw [forM_ok_iff]
    intro p hp
    have hg := Dict.get?_of_mem_nodup _ hd hm
    have hl : l = withParam priors k := by
      by_cases he : withParam priors k = []
      · rw [hn k he] at hg; cases hg
      · rw [hs k he] at hg; cases hg; rfl
    simp only at hp ⊢
    rw [hl, mem_withParam] at hp
    rw [if_neg]
    rintro ⟨h1, _⟩
    exact h1 (h p hp.1 k hp.2)

theorem check_iff (priors : List Prior) (names : List Key) :
    checkProperPriors priors names = .ok () ↔
      (∀ k ∈ names, (withParam priors k).length = 1) ∧ (∀ p ∈ priors, ∀ k, p.param? = some k → k ∈ names) := by
  rw [← checkFree_iff, ← checkFixed_iff]
  unfold checkProperPriors
  cases h : checkFree (getPriorDict priors) names with
  | error e => simp [bind, Except.bind, h]
  | ok u => cases u; simp [bind, Except.bind, h]

theorem check_error (priors : List Prior) (names : List Key) (e : PyErr) (h : checkProperPriors priors names = .error e) : e = .valueError := by
  have gen : ∀ {α : Type} (l : List α) (f : α → Except PyErr Unit) (e : PyErr), (∀ x ∈ l, ∀ e, f x = .error e → e = .valueError) →
      l.forM f = .error e → e = .valueError := by
    intro α l f e
    induction l with
    | nil => intro _ h; simp [pure, Except.pure] at h
    | cons a t ih =>
      intro hf h
      change (f a >>= fun _ => t.forM f) = .error e at h
      cases ha : f a with
      | error e' =>
        rw [ha] at h; simp [bind, Except.bind] at h
        subst h
        exact hf a (by simp) _ ha
      | ok u =>
        rw [ha] at h; simp only [bind, Except.bind] at h
        exact ih (fun x hx => hf x (List.mem_cons_of_mem _ hx)) h
  unfold checkProperPriors at h
  simp only at h
  cases hc : checkFree (getPriorDict priors) names with
  | error e' =>
    rw [hc] at h; simp [bind, Except.bind] at h
    subst h
    refine gen _ _ _ ?_ hc
    intro k _ e h
    simp only at h
    split at h
    · cases h; rfl
    · split at h
      · cases h; rfl
      · split at h <;> cases h
        rfl
  | ok u =>
    rw [hc] at h; simp only [bind, Except.bind] at h
    refine gen _ _ _ ?_ h
    intro x _ e h
    refine gen _ _ _ ?_ h
    intro p _ e h
    split at h <;> cases h
    rfl

/-- The loop of `prior_transform` after a successful check. -/
theorem transformLoop_spec (ppf : ℝ → ℝ) (priors : List Prior) (inplace : Bool) (u : List ℝ) (names : List Key) (tr : Key → Prior)
    (htr : ∀ k ∈ names, withParam priors k = [tr k])
    (hok : ∀ k ∈ names, ∀ v, ∃ y, (tr k).transform ppf v = .ok y)
    (ind : Nat) (x : List ℝ) (hx : x.length = ind + names.length) (hu : u.length = x.length)
    (hxu : ∀ j : Nat, ind ≤ j → x[j]? = u[j]?) :
    ∃ y, transformLoop ppf (getPriorDict priors) inplace u ind names x = .ok y ∧ y.length = x.length ∧
      (∀ j : Nat, j < ind → y[j]? = x[j]?) ∧
      (∀ (j : Nat) k, names[j]? = some k → ∃ a b, u[ind + j]? = some a ∧ y[ind + j]? = some b ∧ (tr k).transform ppf a = .ok b) := by
  induction names generalizing ind x with
  | nil => exact ⟨x, rfl, rfl, fun _ _ => rfl, fun j k h => by simp at h⟩
  | cons k t ih =>
    have hk : withParam priors k = [tr k] := htr k (by simp)
    have hg := (getPriorDict_spec priors).2.2 k (by rw [hk]; simp)
    have hlen : ind < u.length := by rw [hu, hx]; simp
    obtain ⟨a, ha⟩ : ∃ a, u[ind]? = some a := ⟨u[ind], List.getElem?_eq_getElem hlen⟩
    obtain ⟨b, hb⟩ := hok k (by simp) a
    have hex : (tr k).extraConstraint = false := by
      have : tr k ∈ withParam priors k := by rw [hk]; simp
      exact extra_of_param (mem_withParam.1 this).2
    have hstep : transformStep ppf (getPriorDict priors) inplace u x ind k = .ok (x.set ind b) := by
      unfold transformStep
      rw [hg, hk]
      have h1 : (if inplace = true then x else u)[ind]? = some a := by
        cases inplace
        · simpa using ha
        · simpa [hxu ind (le_refl _)] using ha
      have h2 : [tr k].find? (fun p => !p.extraConstraint) = some (tr k) := by simp [hex]
      simp only [h2, h1, hb]
    obtain ⟨y, h1, h2, h3, h4⟩ := ih (fun k hk => htr k (List.mem_cons_of_mem _ hk)) (fun k hk => hok k (List.mem_cons_of_mem _ hk))
      (ind + 1) (x.set ind b) (by simp [hx]; omega) (by simp [hu]) (by
        intro j hj
        rw [List.getElem?_set_ne (by omega)]
        exact hxu j (by omega))
    refine ⟨y, ?_, by simpa using h2, ?_, ?_⟩
    · rw [transformLoop, hstep]; exact h1
    · intro j hj
      rw [h3 j (by omega), List.getElem?_set_ne (by omega)]
    · intro j k' hk'
      cases j with
      | zero =>
        simp at hk'; subst hk'
        refine ⟨a, b, by simpa using ha, ?_, hb⟩
        rw [Nat.add_zero, h3 ind (by omega)]
        rw [List.getElem?_set_self (by rw [← hu]; exact hlen)]
      | succ j =>
        obtain ⟨a', b', c1, c2, c3⟩ := h4 j k' (by simpa using hk')
        refine ⟨a', b', ?_, ?_, c3⟩
        · rw [← c1]; congr 1; omega
        · rw [← c2]; congr 1; omega

/-- A satisfied constraint has the same value with and without `finite=True`. -/
theorem call_finite {s : VState ℝ} {p : Prior} (ht : p.takesFinite = true) {c : ℝ} (h : p.call s none = .ok (.fin c)) :
    p.call s (some true) = .ok (.fin c) := by
  have hloop : ∀ pairs, eccLoop s false pairs = .ok none → eccLoop s true pairs = .ok none := by
    intro pairs
    induction pairs with
    | nil => intro h; exact h
    | cons a t ih =>
      obtain ⟨n, lim⟩ := a
      simp only [eccLoop]
      cases eccOf s n with
      | error e => simp
      | ok ecc =>
        simp only
        split
        · intro h; simp at h
        · exact ih
  have hloop2 : ∀ pairs v, eccLoop s false pairs = .ok (some v) → v = .neg := by
    intro pairs v
    induction pairs with
    | nil => intro h; simp [eccLoop] at h
    | cons a t ih =>
      obtain ⟨n, lim⟩ := a
      simp only [eccLoop]
      cases eccOf s n with
      | error e => simp
      | ok ecc =>
        simp only
        split
        · intro h; simp [rejected] at h; exact h.symm
        · exact ih
  have hpos : ∀ l, posKLoop s false l = .ok (.fin c) → posKLoop s true l = .ok (.fin c) := by
    intro l
    induction l with
    | nil => intro h; exact h
    | cons n t ih =>
      simp only [posKLoop]
      cases ampOf s n with
      | error e => simp
      | ok k =>
        simp only
        split
        · intro h; simp [rejected] at h
        · exact ih
  cases p <;> simp [Prior.takesFinite] at ht
  · rename_i pairs
    have h' : eccCall pairs s false = .ok (.fin c) := by simpa [Prior.call] using h
    show eccCall pairs s true = .ok (.fin c)
    unfold eccCall at h' ⊢
    cases hl : eccLoop s false pairs with
    | error e => rw [hl] at h'; simp at h'
    | ok o =>
      cases o with
      | some v =>
        rw [hl] at h'; simp at h'
        rw [hloop2 _ _ hl] at h'; cases h'
      | none =>
        rw [hl] at h'
        rw [hloop _ hl]
        exact h'
  · rename_i n
    have h' : posKCall n s false = .ok (.fin c) := by simpa [Prior.call] using h
    exact hpos _ h'

/-- A violated constraint is `-inf` for MCMC and `-1e100` for nested sampling. -/
theorem call_rejected {s : VState ℝ} {p : Prior} (ht : p.takesFinite = true)
    (hlim : ∀ pairs, p = .ecc pairs → ∀ q ∈ pairs, 0 < q.2) (h : p.call s none = .ok .neg) :
    p.call s (some true) = .ok (.fin (-1e100)) := by
  have hloop2 : ∀ pairs v, eccLoop s false pairs = .ok (some v) → eccLoop s true pairs = .ok (some (.fin (-1e100))) := by
    intro pairs v
    induction pairs with
    | nil => intro h; simp [eccLoop] at h
    | cons a t ih =>
      obtain ⟨n, lim⟩ := a
      simp only [eccLoop]
      cases eccOf s n with
      | error e => simp
      | ok ecc =>
        simp only
        split
        · intro h; rfl
        · exact ih
  have hpos : ∀ l, posKLoop s false l = .ok .neg → posKLoop s true l = .ok (.fin (-1e100)) := by
    intro l
    induction l with
    | nil => intro h; simp [posKLoop] at h
    | cons n t ih =>
      simp only [posKLoop]
      cases ampOf s n with
      | error e => simp
      | ok k =>
        simp only
        split
        · intro h; rfl
        · exact ih
  cases p <;> simp [Prior.takesFinite] at ht
  · rename_i pairs
    have h' : eccCall pairs s false = .ok .neg := by simpa [Prior.call] using h
    show eccCall pairs s true = .ok (.fin (-1e100))
    unfold eccCall at h' ⊢
    cases hl : eccLoop s false pairs with
    | error e => rw [hl] at h'; simp at h'
    | ok o =>
      cases o with
      | some v => rw [hloop2 _ _ hl]
      | none =>
        rw [hl] at h'
        exfalso
        have h2 : (pairs.map (fun p => Fl.log p.2)) = pairs.map (fun p => Fl.fin (Real.log p.2)) :=
          List.map_congr_left (fun q hq => Fl.log_of_pos (hlim pairs rfl q hq))
        simp only [h2] at h'
        have h3 := Fl.sum_map_fin (pairs.map (fun p => Real.log p.2))
        rw [List.map_map] at h3
        simp only [Function.comp_def] at h3
        rw [h3] at h'
        simp [Fl.minus] at h'
  · rename_i n
    have h' : posKCall n s false = .ok .neg := by simpa [Prior.call] using h
    exact hpos _ h'

end Radvel
