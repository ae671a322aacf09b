import Verif.Model.Basis
import Verif.Lemmas.Built

namespace Radvel
open Real

variable {pin out : Dict Key (Parameter ℝ)}

/-! ### one planet -/

theorem setpars_get_ne (v : Vary) (n : Nat) (news : List (PName × ℝ)) (out : Dict Key (Parameter ℝ)) (key : Key)
    (hk : ∀ x, key ≠ .orb x n) : (setpars pin v n news out).get? key = out.get? key := by
  unfold setpars
  induction news generalizing out with
  | nil => rfl
  | cons a t ih =>
    simp only [List.foldl_cons]
    rw [ih, Dict.get?_set_ne _ _ (Ne.symm (hk a.1))]

theorem setpars_get (v : Vary) (n : Nat) (news : List (PName × ℝ)) (out : Dict Key (Parameter ℝ)) (x : PName)
    (hn : (Dict.keys news).Nodup) :
    (setpars pin v n news out).get? (.orb x n) =
      match Dict.get? news x with
      | some val => some (newPar pin v (.orb x n) val)
      | none => out.get? (.orb x n) := by
  unfold setpars
  induction news generalizing out with
  | nil => rfl
  | cons a t ih =>
    obtain ⟨y, val⟩ := a
    have hn' : y ∉ Dict.keys t ∧ (Dict.keys t).Nodup := by simpa [Dict.keys] using hn
    simp only [List.foldl_cons]
    rw [ih _ hn'.2, Dict.get?_cons]
    by_cases h : y = x
    · subst h
      have : Dict.get? t y = none := (Dict.get?_eq_none_iff _ _).2 hn'.1
      simp [this]
    · have h' : Key.orb y n ≠ Key.orb x n := by simpa using h
      simp only [if_neg h]
      cases Dict.get? t x with
      | some val => rfl
      | none => exact Dict.get?_set_ne _ _ h'

theorem setpars_nodup (v : Vary) (n : Nat) (news : List (PName × ℝ)) (out : Dict Key (Parameter ℝ))
    (h : out.keys.Nodup) : (setpars pin v n news out).keys.Nodup := by
  unfold setpars
  induction news generalizing out with
  | nil => exact h
  | cons a t ih => exact ih _ (Dict.nodup_keys_set _ _ _ h)

theorem delpars_spec (n : Nat) (dels : List PName) (out : Dict Key (Parameter ℝ)) (hn : dels.Nodup)
    (hd : ∀ x ∈ dels, Key.orb x n ∈ out.keys) :
    ∃ out', delpars n dels out = .ok out' ∧ (out.keys.Nodup → out'.keys.Nodup) ∧
      (∀ x, out'.get? (.orb x n) = if x ∈ dels then none else out.get? (.orb x n)) ∧
      (∀ key, (∀ x, key ≠ .orb x n) → out'.get? key = out.get? key) := by
  unfold delpars
  induction dels generalizing out with
  | nil => exact ⟨out, rfl, id, by simp, fun _ _ => rfl⟩
  | cons a t ih =>
    rw [List.nodup_cons] at hn
    have h1 : out.has (.orb a n) = true := (Dict.has_iff _ _).2 (hd a (by simp))
    obtain ⟨out', e1, e2, e3, e4⟩ := ih (out.erase (.orb a n)) hn.2 (by
      intro x hx
      rw [Dict.mem_keys_erase]
      refine ⟨?_, hd x (List.mem_cons_of_mem _ hx)⟩
      intro h; injection h with h; subst h; exact hn.1 hx)
    refine ⟨out', ?_, fun h => e2 (Dict.nodup_keys_erase _ _ h), ?_, ?_⟩
    · rw [List.foldlM_cons]
      simp only [Dict.del, h1, if_true]
      exact e1
    · intro x
      rw [e3 x, Dict.get?_erase]
      by_cases hx : x = a
      · subst hx; simp
      · have : Key.orb a n ≠ Key.orb x n := by simpa using Ne.symm hx
        simp [hx, this]
    · intro key hk
      rw [e4 key hk, Dict.get?_erase, if_neg (Ne.symm (hk a))]

/-- What one planet's conversion leaves under `x`. -/
def convGet (pin : Dict Key (Parameter ℝ)) (v : Vary) (n : Nat) (news : List (PName × ℝ)) (dels : List PName)
    (old : Option (Parameter ℝ)) (x : PName) : Option (Parameter ℝ) :=
  if x ∈ dels then none
  else
    match Dict.get? news x with
    | some val => some (newPar pin v (.orb x n) val)
    | none => old

theorem planet_spec (v : Vary) (n : Nat) (news : List (PName × ℝ)) (dels : List PName) (out : Dict Key (Parameter ℝ))
    (hn : (Dict.keys news).Nodup) (hdn : dels.Nodup)
    (hd : ∀ x ∈ dels, x ∈ Dict.keys news ∨ Key.orb x n ∈ out.keys) :
    ∃ out', delpars n dels (setpars pin v n news out) = .ok out' ∧ (out.keys.Nodup → out'.keys.Nodup) ∧
      (∀ x, out'.get? (.orb x n) = convGet pin v n news dels (out.get? (.orb x n)) x) ∧
      (∀ key, (∀ x, key ≠ .orb x n) → out'.get? key = out.get? key) := by
  obtain ⟨out', e1, e2, e3, e4⟩ := delpars_spec n dels (setpars pin v n news out) hdn (by
    intro x hx
    rw [← Dict.get?_isSome_iff, setpars_get v n news out x hn]
    rcases hd x hx with h | h
    · obtain ⟨val, hv⟩ := Dict.exists_get?_of_mem _ h
      rw [hv]; rfl
    · cases hg : Dict.get? news x with
      | some val => rfl
      | none => exact (Dict.get?_isSome_iff _ _).2 h)
  refine ⟨out', e1, fun h => e2 (setpars_nodup v n news out h), ?_, ?_⟩
  · intro x
    rw [e3 x, setpars_get v n news out x hn]
    rfl
  · intro key hk
    rw [e4 key hk, setpars_get_ne v n news out key hk]

/-! ### all planets -/

/-- The loop over planets shared by `to_synth` and `from_synth`. -/
theorem planets_spec (v : Vary) (N : Nat) (news : Nat → Except PyErr (List (PName × ℝ))) (ns : Nat → List (PName × ℝ))
    (dels : List PName) (out : Dict Key (Parameter ℝ)) (hdn : dels.Nodup)
    (hnews : ∀ i, i < N → news i = .ok (ns i)) (hn : ∀ i, i < N → (Dict.keys (ns i)).Nodup)
    (hd : ∀ i, i < N → ∀ x ∈ dels, x ∈ Dict.keys (ns i) ∨ Key.orb x (i + 1) ∈ out.keys) :
    ∃ out', (List.range N).foldlM (fun out i => (do
        let a ← news i
        delpars (i + 1) dels (setpars pin v (i + 1) a out) : Except PyErr (Dict Key (Parameter ℝ)))) out = .ok out' ∧
      (out.keys.Nodup → out'.keys.Nodup) ∧
      (∀ x i, i < N → out'.get? (.orb x (i + 1)) = convGet pin v (i + 1) (ns i) dels (out.get? (.orb x (i + 1))) x) ∧
      (∀ key, (∀ x i, i < N → key ≠ .orb x (i + 1)) → out'.get? key = out.get? key) := by
  induction N with
  | zero => exact ⟨out, rfl, id, by simp, fun _ _ => rfl⟩
  | succ N ih =>
    obtain ⟨o1, e1, e2, e3, e4⟩ := ih (fun i hi => hnews i (by omega)) (fun i hi => hn i (by omega))
      (fun i hi => hd i (by omega))
    have hkey : ∀ x, o1.get? (.orb x (N + 1)) = out.get? (.orb x (N + 1)) := by
      intro x
      apply e4
      intro y i hi h
      injection h with h1 h2
      omega
    obtain ⟨o2, f1, f2, f3, f4⟩ := planet_spec (pin := pin) v (N + 1) (ns N) dels o1 (hn N (by omega)) hdn (by
      intro x hx
      rcases hd N (by omega) x hx with h | h
      · exact .inl h
      · right
        rw [← Dict.get?_isSome_iff, hkey x]
        exact (Dict.get?_isSome_iff _ _).2 h)
    refine ⟨o2, ?_, fun h => f2 (e2 h), ?_, ?_⟩
    · rw [List.range_succ, List.foldlM_append, e1]
      simp only [List.foldlM_cons, List.foldlM_nil]
      show (do let a ← news N; _) >>= _ = _
      rw [hnews N (by omega)]
      show (delpars (N + 1) dels (setpars pin v (N + 1) (ns N) o1)) >>= _ = _
      rw [f1]; rfl
    · intro x i hi
      by_cases h : i = N
      · subst h; rw [f3 x, hkey x]
      · rw [f4, e3 x i (by omega)]
        intro y hy
        injection hy with _ hy
        omega
    · intro key hk
      rw [f4 key (fun x => hk x N (by omega)), e4 key (fun x i hi => hk x i (by omega))]

/-! ### the copy -/

theorem copy_get (dflt : ℝ) (p : Params ℝ) (hn : p.items.keys.Nodup)
    (hd : ∀ q m, q ∈ p.basis.words → 1 ≤ m → m ≤ p.numPlanets → Key.orb q m ∈ p.items.keys) (k : Key) :
    (copyParams dflt p).items.get? k = p.items.get? k := by
  unfold copyParams
  simp only
  rw [Dict.get?_update _ _ hn]
  cases h : p.items.get? k with
  | some q => rfl
  | none =>
    simp only [Option.none_or]
    rw [Dict.get?_eq_none_iff, Params.init_keys, mem_defaultKeys]
    rintro ⟨q, m, rfl, h1, h2, h3⟩
    exact (Dict.get?_eq_none_iff _ _).1 h (hd q m h1 h2 h3)

theorem copy_nodup (dflt : ℝ) (p : Params ℝ) : (copyParams dflt p).items.keys.Nodup := by
  unfold copyParams
  simp only
  apply Dict.nodup_keys_update
  rw [Params.init_keys]
  exact nodup_defaultKeys _ _ (words_nodup _)

/-! ### formulas on total value assignments -/

/-- Values of one planet in any basis. -/
abbrev Vals := PName → ℝ

/-- The synth quantities, from values. -/
noncomputable def synthOfVals (b : BasisName) (g : Vals) : Synth :=
  match b with
  | .perTpEWK | .perTcTpEWK => ⟨g .per, g .tp, g .e, g .w, g .k⟩
  | .perTcEWK => ⟨g .per, timetransToTimeperi (g .tc) (g .per) (g .e) (g .w), g .e, g .w, g .k⟩
  | .perTcSeWK => ⟨g .per, timetransToTimeperi (g .tc) (g .per) (g .se ^ 2) (g .w), g .se ^ 2, g .w, g .k⟩
  | .perTcSecoswSesinwLogk =>
    ⟨g .per, timetransToTimeperi (g .tc) (g .per) (g .secosw ^ 2 + g .sesinw ^ 2) (arctan2 (g .sesinw) (g .secosw)),
      g .secosw ^ 2 + g .sesinw ^ 2, arctan2 (g .sesinw) (g .secosw), exp (g .logk)⟩
  | .perTcSecoswSesinwK =>
    ⟨g .per, timetransToTimeperi (g .tc) (g .per) (g .secosw ^ 2 + g .sesinw ^ 2) (arctan2 (g .sesinw) (g .secosw)),
      g .secosw ^ 2 + g .sesinw ^ 2, arctan2 (g .sesinw) (g .secosw), g .k⟩
  | .logperTcSecoswSesinwK =>
    ⟨exp (g .logper), timetransToTimeperi (g .tc) (exp (g .logper)) (g .secosw ^ 2 + g .sesinw ^ 2)
      (arctan2 (g .sesinw) (g .secosw)), g .secosw ^ 2 + g .sesinw ^ 2, arctan2 (g .sesinw) (g .secosw), g .k⟩
  | .logperTcSecoswSesinwLogk =>
    ⟨exp (g .logper), timetransToTimeperi (g .tc) (exp (g .logper)) (g .secosw ^ 2 + g .sesinw ^ 2)
      (arctan2 (g .sesinw) (g .secosw)), g .secosw ^ 2 + g .sesinw ^ 2, arctan2 (g .sesinw) (g .secosw), exp (g .logk)⟩
  | .perTcEcoswEsinwK =>
    ⟨g .per, timetransToTimeperi (g .tc) (g .per) √(g .ecosw ^ 2 + g .esinw ^ 2) (arctan2 (g .esinw) (g .ecosw)),
      √(g .ecosw ^ 2 + g .esinw ^ 2), arctan2 (g .esinw) (g .ecosw), g .k⟩
  | .logperTpEWLogk => ⟨exp (g .logper), g .tp, g .e, g .w, exp (g .logk)⟩

theorem synthOf_ok (b : BasisName) (g : PName → Except PyErr ℝ) (v : Vals) (h : ∀ x ∈ b.words, g x = .ok (v x)) :
    synthOf b g = .ok (synthOfVals b v) := by
  cases b <;> simp only [BasisName.words, List.mem_cons, List.not_mem_nil, or_false, forall_eq_or_imp, forall_eq] at h <;>
    simp only [synthOf, h, synthOfVals, bind, Except.bind, pure, Except.pure]

/-- Names set by `from_synth` on a synth input. -/
def newNames : BasisName → List PName
  | .perTpEWK => []
  | .perTcEWK | .perTcTpEWK => [.tc, .w]
  | .perTcSeWK => [.tc, .w, .se]
  | .perTcSecoswSesinwLogk => [.secosw, .sesinw, .logk, .tc]
  | .perTcSecoswSesinwK => [.secosw, .sesinw, .k, .tc]
  | .logperTcSecoswSesinwK => [.logper, .secosw, .sesinw, .k, .tc]
  | .logperTcSecoswSesinwLogk => [.logper, .secosw, .sesinw, .logk, .tc]
  | .perTcEcoswEsinwK => [.ecosw, .esinw, .k, .tc]
  | .logperTpEWLogk => [.logper, .logk, .tc]

/-- Value of a name computed from synth quantities (the `e sin w` style follows the name). -/
noncomputable def valOf (s : Synth) : PName → ℝ
  | .per => s.per
  | .logper => log s.per
  | .tc => timeperiToTimetrans s.tp s.per s.e s.w false
  | .tp => s.tp
  | .secosw => √s.e * cos s.w
  | .sesinw => √s.e * sin s.w
  | .ecosw => s.e * cos s.w
  | .esinw => s.e * sin s.w
  | .e => s.e
  | .se => √s.e
  | .w => s.w
  | .k => s.k
  | .logk => log s.k

theorem newsOf_ok (nb : BasisName) (g : PName → Except PyErr ℝ) (s : Synth) (h1 : g .per = .ok s.per)
    (h2 : g .tp = .ok s.tp) (h3 : g .e = .ok s.e) (h4 : g .w = .ok s.w) (h5 : g .k = .ok s.k) :
    newsOf nb true g = .ok ((newNames nb).map (fun x => (x, valOf s x))) := by
  cases nb <;>
    simp [newsOf, newNames, valOf, readTp, h1, h2, h3, h4, h5, bind, Except.bind, pure, Except.pure]

theorem get?_map (l : List PName) (f : PName → ℝ) (x : PName) :
    Dict.get? (l.map (fun x => (x, f x))) x = if x ∈ l then some (f x) else none := by
  induction l with
  | nil => rfl
  | cons a t ih =>
    rw [List.map_cons, Dict.get?_cons, ih]
    by_cases h : a = x
    · subst h; simp
    · simp [h, Ne.symm h]

theorem keys_map (l : List PName) (f : PName → ℝ) : Dict.keys (l.map (fun x => (x, f x))) = l := by
  simp [Dict.keys, Function.comp_def]

theorem newNames_nodup (nb : BasisName) : (newNames nb).Nodup := by cases nb <;> decide
theorem delsOf_nodup (nb : BasisName) : (delsOf nb).Nodup := by cases nb <;> decide
theorem synth_news (s : Synth) : s.news = (BasisName.words .perTpEWK).map (fun x => (x, valOf s x)) := rfl

/-! ### `to_synth` -/

/-- A parameter set that holds all the keys of its basis, with a fixed value for each. -/
structure HasVals (p : Params ℝ) (v : Nat → Vals) : Prop where
  nodup : p.items.keys.Nodup
  vals : ∀ x m, x ∈ p.basis.words → 1 ≤ m → m ≤ p.numPlanets → ∃ q, p.items.get? (.orb x m) = some q ∧ q.value = v m x

theorem HasVals.getpar {p : Params ℝ} {v : Nat → Vals} (h : HasVals p v) (m : Nat) (h1 : 1 ≤ m) (h2 : m ≤ p.numPlanets) :
    ∀ x ∈ p.basis.words, getpar p.items m x = .ok (v m x) := by
  intro x hx
  obtain ⟨q, hq, hv⟩ := h.vals x m hx h1 h2
  simp [Radvel.getpar, hq, hv]

theorem HasVals.mem {p : Params ℝ} {v : Nat → Vals} (h : HasVals p v) : ∀ q m, q ∈ p.basis.words → 1 ≤ m →
    m ≤ p.numPlanets → Key.orb q m ∈ p.items.keys := by
  intro q m h1 h2 h3
  obtain ⟨r, hr, _⟩ := h.vals q m h1 h2 h3
  exact Dict.mem_keys_of_get? _ hr

theorem toSynth_spec (dflt : ℝ) (noVary : Bool) (p : Params ℝ) (v : Nat → Vals) (h : HasVals p v) :
    ∃ q, toSynth dflt p.basis noVary p = .ok q ∧ q.items.keys.Nodup ∧ q.basis = .perTpEWK ∧
      q.planetParameters = BasisName.words .perTpEWK ∧ q.numPlanets = p.numPlanets ∧ q.letters = p.letters ∧
      (∀ x m, 1 ≤ m → m ≤ p.numPlanets → q.items.get? (.orb x m) =
        if x ∈ BasisName.words .perTpEWK then
          some (newPar p.items (if noVary then .blank else .yes) (.orb x m) (valOf (synthOfVals p.basis (v m)) x))
        else p.items.get? (.orb x m)) ∧
      (∀ key, (∀ x m, 1 ≤ m → m ≤ p.numPlanets → key ≠ .orb x m) → q.items.get? key = p.items.get? key) := by
  obtain ⟨out, e1, e2, e3, e4⟩ := planets_spec (pin := p.items) (if noVary then .blank else .yes) p.numPlanets
    (fun i => do let s ← synthOf p.basis (getpar p.items (i + 1)); pure s.news)
    (fun i => (synthOfVals p.basis (v (i + 1))).news) [] (copyParams dflt p).items (by simp)
    (by
      intro i hi
      rw [synthOf_ok _ _ (v (i + 1)) (h.getpar (i + 1) (by omega) (by omega))]
      rfl)
    (by intro i _; rw [synth_news, keys_map]; decide)
    (by simp)
  refine ⟨{ copyParams dflt p with items := out, basis := .perTpEWK, planetParameters := BasisName.words .perTpEWK },
    ?_, e2 (copy_nodup dflt p), rfl, rfl, rfl, rfl, ?_, ?_⟩
  · unfold toSynth
    have : ∀ (i : Nat) (o : Dict Key (Parameter ℝ)), (do
        let s ← synthOf p.basis (getpar p.items (i + 1))
        return setpars p.items (if noVary then .blank else .yes) (i + 1) s.news o) = (do
        let a ← (do let s ← synthOf p.basis (getpar p.items (i + 1)); pure s.news)
        delpars (i + 1) [] (setpars p.items (if noVary then .blank else .yes) (i + 1) a o) : Except PyErr _) := by
      intro i o
      cases synthOf p.basis (getpar p.items (i + 1)) <;> rfl
    simp only [this, e1]
    rfl
  · intro x m h1 h2
    show out.get? _ = _
    obtain ⟨i, rfl⟩ : ∃ i, m = i + 1 := ⟨m - 1, by omega⟩
    rw [e3 x i (by omega), copy_get dflt p h.nodup h.mem]
    simp only [convGet, List.not_mem_nil, if_false]
    rw [synth_news, get?_map]
    split <;> simp_all
  · intro key hk
    show out.get? _ = _
    rw [e4 key (fun x i hi => hk x (i + 1) (by omega) (by omega)), copy_get dflt p h.nodup h.mem]

/-! ### `from_synth` -/

theorem fromSynth_spec (dflt : ℝ) (nb : BasisName) (keep : Bool) (p : Params ℝ) (v : Nat → Vals) (h : HasVals p v)
    (hb : p.basis = .perTpEWK) (hpp : p.planetParameters = BasisName.words .perTpEWK) :
    ∃ q, fromSynth dflt nb keep p = .ok q ∧ q.items.keys.Nodup ∧ q.basis = nb ∧
      q.planetParameters = nb.words ∧ q.numPlanets = p.numPlanets ∧ q.letters = p.letters ∧
      (∀ x m, 1 ≤ m → m ≤ p.numPlanets → q.items.get? (.orb x m) =
        if keep = false ∧ x ∈ delsOf nb then none
        else if x ∈ newNames nb then
          some (newPar p.items .yes (.orb x m) (valOf (synthOfVals .perTpEWK (v m)) x))
        else p.items.get? (.orb x m)) ∧
      (∀ key, (∀ x m, 1 ≤ m → m ≤ p.numPlanets → key ≠ .orb x m) → q.items.get? key = p.items.get? key) := by
  have hdel : ∀ x ∈ delsOf nb, x ∈ newNames nb ∨ x ∈ BasisName.words .perTpEWK := by cases nb <;> decide
  have hw : ∀ (i : Nat), i < p.numPlanets → ∀ x ∈ BasisName.words .perTpEWK, getpar p.items (i + 1) x = .ok (v (i + 1) x) := by
    intro i hi x hx
    exact h.getpar (i + 1) (by omega) (by omega) x (by rw [hb]; exact hx)
  obtain ⟨out, e1, e2, e3, e4⟩ := planets_spec (pin := p.items) .yes p.numPlanets
    (fun i => newsOf nb (decide (PName.tp ∈ p.planetParameters)) (getpar p.items (i + 1)))
    (fun i => (newNames nb).map (fun x => (x, valOf (synthOfVals .perTpEWK (v (i + 1))) x)))
    (if keep then [] else delsOf nb) (copyParams dflt p).items (by split; simp; exact delsOf_nodup nb)
    (by
      intro i hi
      have : decide (PName.tp ∈ p.planetParameters) = true := by rw [hpp]; decide
      rw [this]
      exact newsOf_ok nb _ (synthOfVals .perTpEWK (v (i + 1))) (hw i hi _ (by decide)) (hw i hi _ (by decide))
        (hw i hi _ (by decide)) (hw i hi _ (by decide)) (hw i hi _ (by decide)))
    (by intro i _; rw [keys_map]; exact newNames_nodup nb)
    (by
      intro i hi x hx
      rw [keys_map]
      have hx' : x ∈ delsOf nb := by
        cases keep <;> simp_all
      rcases hdel x hx' with h' | h'
      · exact .inl h'
      · right
        rw [← Dict.get?_isSome_iff, copy_get dflt p h.nodup h.mem]
        rw [Dict.get?_isSome_iff]
        exact h.mem x (i + 1) (by rw [hb]; exact h') (by omega) (by omega))
  refine ⟨{ copyParams dflt p with items := out, basis := nb, planetParameters := nb.words },
    ?_, e2 (copy_nodup dflt p), rfl, rfl, rfl, rfl, ?_, ?_⟩
  · unfold fromSynth
    simp only [e1]
    rfl
  · intro x m h1 h2
    show out.get? _ = _
    obtain ⟨i, rfl⟩ : ∃ i, m = i + 1 := ⟨m - 1, by omega⟩
    rw [e3 x i (by omega), copy_get dflt p h.nodup h.mem]
    unfold convGet
    rw [get?_map]
    cases keep <;> simp <;> (split <;> [skip; split]) <;> simp_all
  · intro key hk
    show out.get? _ = _
    rw [e4 key (fun x i hi => hk x (i + 1) (by omega) (by omega)), copy_get dflt p h.nodup h.mem]

end Radvel
