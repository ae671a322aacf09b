import Verif.Spec.BasisHeap
import Verif.Lemmas.Dict
import Verif.Lemmas.Basis

/-! # Lemmas for C14 and C166: objects in basis conversions -/

namespace Radvel

section mapv
variable {κ ν μ : Type} [DecidableEq κ] (f : ν → μ)

theorem get?_mapv (d : Dict κ ν) (k : κ) : Dict.get? (d.map fun x => (x.1, f x.2)) k = (d.get? k).map f := by
  induction d with
  | nil => rfl
  | cons x d ih =>
    obtain ⟨k', v⟩ := x
    simp only [List.map_cons, Dict.get?]
    split_ifs
    · rfl
    · exact ih

theorem set_mapv (d : Dict κ ν) (k : κ) (v : ν) : (d.set k v).map (fun x => (x.1, f x.2)) = Dict.set (d.map fun x => (x.1, f x.2)) k (f v) := by
  induction d with
  | nil => rfl
  | cons x d ih =>
    obtain ⟨k', v'⟩ := x
    simp only [List.map_cons, Dict.set]
    split_ifs
    · rfl
    · rw [List.map_cons, ih]

theorem update_mapv (d e : Dict κ ν) : (d.update e).map (fun x => (x.1, f x.2)) = Dict.update (d.map fun x => (x.1, f x.2)) (e.map fun x => (x.1, f x.2)) := by
  induction e generalizing d with
  | nil => rfl
  | cons x e ih =>
    rw [Dict.update_cons, ih, set_mapv, List.map_cons, Dict.update_cons]

theorem del_mapv (d : Dict κ ν) (k : κ) : Dict.del (d.map fun x => (x.1, f x.2)) k = (d.del k).map (List.map fun x => (x.1, f x.2)) := by
  unfold Dict.del Dict.has
  rw [get?_mapv, Option.isSome_map]
  split_ifs
  · show Except.ok _ = Except.ok _
    congr 1
    unfold Dict.erase
    rw [List.filter_map]
    rfl
  · rfl

theorem mem_set {d : Dict κ ν} {k : κ} {v : ν} {x : κ × ν} (h : x ∈ d.set k v) : x ∈ d ∨ x = (k, v) := by
  induction d with
  | nil => exact .inr (by simpa [Dict.set] using h)
  | cons y d ih =>
    obtain ⟨k', v'⟩ := y
    simp only [Dict.set] at h
    split_ifs at h with hk
    · rcases List.mem_cons.1 h with rfl | h
      · exact .inr rfl
      · exact .inl (List.mem_cons_of_mem _ h)
    · rcases List.mem_cons.1 h with rfl | h
      · exact .inl (by simp)
      · rcases ih h with h | h
        · exact .inl (List.mem_cons_of_mem _ h)
        · exact .inr h

theorem mem_update {d e : Dict κ ν} {x : κ × ν} (h : x ∈ d.update e) : x ∈ d ∨ x ∈ e := by
  induction e generalizing d with
  | nil => exact .inl h
  | cons y e ih =>
    rw [Dict.update_cons] at h
    rcases ih h with h | h
    · rcases mem_set h with h | rfl
      · exact .inl h
      · exact .inr (by simp)
    · exact .inr (List.mem_cons_of_mem _ h)

end mapv

theorem par_ext {s s' : Store} (h : s.pars <+: s'.pars) {r : Nat} (hr : r < s.pars.length) : s'.par r = s.par r := by
  obtain ⟨t, ht⟩ := h
  unfold Store.par
  rw [← ht, List.getElem?_append_left hr]

theorem items_ext {s s' : Store} (h : s.pars <+: s'.pars) {d : Dict Key Nat} (hd : Refs s.pars.length d) : s'.items d = s.items d := by
  unfold Store.items
  refine List.map_congr_left fun x hx => ?_
  rw [par_ext h (hd x hx)]

theorem Refs.mono {n m : Nat} {d : Dict Key Nat} (h : Refs n d) (hnm : n ≤ m) : Refs m d := fun x hx => (h x hx).trans_le hnm

/-- The state of a conversion: `d` in store `s` reads as `v`, objects of `s0` are unchanged, and the references of `d` are new or those of `pin`. -/
structure Sim (s0 : Store) (pin : Dict Key Nat) (d : Dict Key Nat) (s : Store) (v : Dict Key (Parameter ℝ)) : Prop where
  pars : s0.pars <+: s.pars
  refs : Refs s.pars.length d
  items : s.items d = v
  nodup : d.keys.Nodup
  share : ∀ k r, d.get? k = some r → s0.pars.length ≤ r ∨ pin.get? k = some r

theorem sim_bind {s0 s : Store} {pin d : Dict Key Nat} {v : Dict Key (Parameter ℝ)} (h : Sim s0 pin d s v) (k : Key) (x : Parameter ℝ) :
    Sim s0 pin (Store.bind k x (d, s)).1 (Store.bind k x (d, s)).2 (v.set k x) ∧ (Store.bind k x (d, s)).2.bases = s.bases := by
  have hp : s.pars <+: s.pars ++ [x] := List.prefix_append _ _
  refine ⟨⟨h.pars.trans hp, ?_, ?_, ?_, ?_⟩, rfl⟩
  · intro y hy
    show y.2 < (s.pars ++ [x]).length
    rw [List.length_append]
    rcases mem_set hy with hy | rfl
    · have := h.refs y hy
      simp only [List.length_singleton]
      omega
    · simp
  · show Store.items _ (d.set k s.pars.length) = _
    unfold Store.items
    rw [set_mapv]
    have : (Store.mk (s.pars ++ [x]) s.bases).items d = s.items d := items_ext hp h.refs
    unfold Store.items at this
    show Dict.set (d.map fun y => (y.1, (Store.mk (s.pars ++ [x]) s.bases).par y.2)) k ((Store.mk (s.pars ++ [x]) s.bases).par s.pars.length) = _
    rw [this]
    have hx : (Store.mk (s.pars ++ [x]) s.bases).par s.pars.length = x := by
      unfold Store.par
      simp
    rw [hx]
    have := h.items
    unfold Store.items at this
    rw [this]
  · exact Dict.nodup_keys_set _ _ _ h.nodup
  · intro k' r hr
    show _ ∨ _
    change (d.set k s.pars.length).get? k' = some r at hr
    rw [Dict.get?_set] at hr
    split_ifs at hr with hk
    · cases hr
      exact .inl h.pars.length_le
    · exact h.share k' r hr

/-- A sequence of `_setpar` calls: the values, and new objects for the keys that were set. -/
theorem sim_setpars {s0 : Store} {p : HParams} (hp : Refs s0.pars.length p.items) (pin : Dict Key Nat) (nv : Vary) (n : Nat) : ∀ (news : List (PName × ℝ)) {d : Dict Key Nat} {s : Store} {v : Dict Key (Parameter ℝ)}, Sim s0 pin d s v →
    Sim s0 pin (setparsH p nv n news (d, s)).1 (setparsH p nv n news (d, s)).2 (setpars (s0.items p.items) nv n news v) ∧ (setparsH p nv n news (d, s)).2.bases = s.bases ∧
    (∀ k, k ∉ news.map (fun x => Key.orb x.1 n) → (setparsH p nv n news (d, s)).1.get? k = d.get? k) ∧
    ∀ k ∈ news.map (fun x => Key.orb x.1 n), ∃ r, (setparsH p nv n news (d, s)).1.get? k = some r ∧ s0.pars.length ≤ r
  | [], d, s, v, h => ⟨h, rfl, fun _ _ => rfl, fun k hk => by simp at hk⟩
  | x :: news, d, s, v, h => by
    have hpar : newPar (s.items p.items) nv (.orb x.1 n) x.2 = newPar (s0.items p.items) nv (.orb x.1 n) x.2 := by rw [items_ext h.pars hp]
    obtain ⟨h1, hb⟩ := sim_bind h (.orb x.1 n) (newPar (s.items p.items) nv (.orb x.1 n) x.2)
    obtain ⟨i1, i2, i3, i4⟩ := sim_setpars hp pin nv n news h1
    rw [hpar] at i1 i2 i3 i4
    have hdef : setparsH p nv n (x :: news) (d, s) = setparsH p nv n news ((Store.bind (.orb x.1 n) (newPar (s0.items p.items) nv (.orb x.1 n) x.2) (d, s)).1,
        (Store.bind (.orb x.1 n) (newPar (s0.items p.items) nv (.orb x.1 n) x.2) (d, s)).2) := by
      show setparsH p nv n news (Store.bind _ (newPar (s.items p.items) nv (.orb x.1 n) x.2) (d, s)) = _
      rw [hpar]
    rw [hdef]
    refine ⟨i1, i2.trans ?_, ?_, ?_⟩
    · rfl
    · intro k hk
      simp only [List.map_cons, List.mem_cons, not_or] at hk
      rw [i3 k hk.2]
      exact Dict.get?_set_ne _ _ (Ne.symm hk.1)
    · intro k hk
      by_cases hm : k ∈ news.map (fun x => Key.orb x.1 n)
      · exact i4 k hm
      · simp only [List.map_cons, List.mem_cons] at hk
        rcases hk with rfl | hk
        · refine ⟨s.pars.length, ?_, h.pars.length_le⟩
          rw [i3 _ hm]
          exact Dict.get?_set_self _ _ _
        · exact absurd hk hm

theorem sim_erase {s0 s : Store} {pin d : Dict Key Nat} {v : Dict Key (Parameter ℝ)} (h : Sim s0 pin d s v) (k : Key) : match d.del k with
    | .error e => v.del k = .error e
    | .ok d' => ∃ v', v.del k = .ok v' ∧ Sim s0 pin d' s v' ∧ (∀ k', k' ≠ k → d'.get? k' = d.get? k') ∧ d'.get? k = none := by
  have hv : v.del k = (d.del k).map (List.map fun x => (x.1, s.par x.2)) := by
    rw [← h.items]
    exact del_mapv _ _ _
  rcases hd : d.del k with e | d'
  · rw [hd] at hv
    exact hv
  · rw [hd] at hv
    have hd' : d' = d.erase k := by
      unfold Dict.del at hd
      split_ifs at hd
      exact (Except.ok.inj hd).symm
    subst hd'
    refine ⟨_, hv, ⟨h.pars, fun x hx => h.refs x (List.mem_of_mem_filter hx), rfl, Dict.nodup_keys_erase _ _ h.nodup, ?_⟩, ?_, ?_⟩
    · intro k' r hr
      rw [Dict.get?_erase] at hr
      split_ifs at hr
      exact h.share k' r hr
    · intro k' hk
      rw [Dict.get?_erase, if_neg (fun h => hk h.symm)]
    · rw [Dict.get?_erase, if_pos rfl]

theorem sim_dels {s0 s : Store} {pin : Dict Key Nat} (n : Nat) : ∀ (dels : List PName) {d : Dict Key Nat} {v : Dict Key (Parameter ℝ)}, Sim s0 pin d s v → match delparsH n dels d with
    | .error e => delpars n dels v = .error e
    | .ok d' => ∃ v', delpars n dels v = .ok v' ∧ Sim s0 pin d' s v' ∧ (∀ k, (∀ x ∈ dels, k ≠ Key.orb x n) → d'.get? k = d.get? k) ∧ ∀ k r, d'.get? k = some r → d.get? k = some r
  | [], d, v, h => ⟨v, rfl, h, fun _ _ => rfl, fun _ _ h => h⟩
  | x :: dels, d, v, h => by
    have e0 : delparsH n (x :: dels) d = (d.del (.orb x n)).bind (delparsH n dels) := rfl
    have e0' : delpars n (x :: dels) v = (v.del (.orb x n)).bind (delpars n dels) := rfl
    rw [e0, e0']
    have h1 := sim_erase h (.orb x n)
    rcases hd : d.del (.orb x n) with e | d'
    · rw [hd] at h1
      simp only at h1
      rw [h1]
      rfl
    · rw [hd] at h1
      obtain ⟨v', e1, h2, h3, h4⟩ := h1
      rw [e1]
      have h5 := sim_dels n dels h2
      simp only [Except.bind]
      rcases hf : delparsH n dels d' with e | d''
      · rw [hf] at h5
        exact h5
      · rw [hf] at h5
        obtain ⟨v'', e2, h6, h7, h8⟩ := h5
        refine ⟨v'', e2, h6, ?_, ?_⟩
        · intro k hk
          rw [h7 k fun y hy => hk y (List.mem_cons_of_mem _ hy), h3 k (hk x (by simp))]
        · intro k r hr
          have := h8 k r hr
          by_cases hk : k = .orb x n
          · rw [hk, h4] at this
            cases this
          · rw [← h3 k hk]
            exact this

theorem sim_defaults {s0 : Store} {pin : Dict Key Nat} (dflt : ℝ) : ∀ (ks : List Key) {d : Dict Key Nat} {s : Store} {v : Dict Key (Parameter ℝ)}, Sim s0 pin d s v →
    Sim s0 pin (ks.foldl (fun acc k => Store.bind k { value := dflt } acc) (d, s)).1 (ks.foldl (fun acc k => Store.bind k { value := dflt } acc) (d, s)).2 (ks.foldl (fun d k => d.set k { value := dflt }) v) ∧
      (ks.foldl (fun acc k => Store.bind k { value := dflt } acc) (d, s)).2.bases = s.bases
  | [], d, s, v, h => ⟨h, rfl⟩
  | k :: ks, d, s, v, h => by
    obtain ⟨h1, hb⟩ := sim_bind h k { value := dflt }
    obtain ⟨i1, i2⟩ := sim_defaults dflt ks h1
    exact ⟨i1, i2.trans hb⟩

/-- `_copy_params`: the values, and the objects of the input. -/
theorem sim_copy (dflt : ℝ) {p : HParams} {s : Store} (h : Valid s p) : Sim s p.items (copyH dflt p s).1.items (copyH dflt p s).2 (copyParams dflt (s.view p)).items ∧
    (copyH dflt p s).2.bases = s.bases ++ [s.basisName p.basis] ∧ (copyH dflt p s).1.numPlanets = p.numPlanets ∧ (copyH dflt p s).1.letters = p.letters ∧
    ∀ k ∈ p.items.keys, (copyH dflt p s).1.items.get? k = p.items.get? k := by
  have h0 : Sim s p.items [] s [] := ⟨List.prefix_rfl, (by intro x hx; cases hx), rfl, List.nodup_nil, (by intro k r hr; cases hr)⟩
  obtain ⟨h1, hb⟩ := sim_defaults dflt (defaultKeys p.numPlanets (s.basisName p.basis).words) h0
  have hg : ∀ k, (copyH dflt p s).1.items.get? k = ((p.items.get? k).or ((initH dflt p.numPlanets (s.basisName p.basis) p.letters s).1.items.get? k)) := by
    intro k
    unfold copyH
    exact Dict.get?_update _ _ h.nodup k
  refine ⟨⟨h1.pars, ?_, ?_, ?_, ?_⟩, ?_, rfl, rfl, ?_⟩
  · intro x hx
    rcases mem_update hx with hx | hx
    · exact h1.refs x hx
    · exact (h.refs x hx).trans_le h1.pars.length_le
  · show Store.items _ (Dict.update _ p.items) = _
    unfold Store.items
    rw [update_mapv]
    have e1 := items_ext (s' := (copyH dflt p s).2) h1.pars h.refs
    unfold Store.items at e1
    rw [e1]
    have e2 := h1.items
    unfold Store.items at e2
    unfold copyParams Params.init
    show Dict.update _ (s.items p.items) = Dict.update _ _
    congr 1
  · exact Dict.nodup_keys_update _ _ h1.nodup
  · intro k r hr
    rw [hg] at hr
    rcases hp : p.items.get? k with _ | r'
    · rw [hp, Option.none_or] at hr
      exact (h1.share k r hr).imp_right fun h => by rw [hp] at h; exact h
    · rw [hp, Option.some_or] at hr
      exact .inr hr
  · show _ ++ _ = _
    rw [hb]
  · intro k hk
    obtain ⟨r, hr⟩ := Dict.exists_get?_of_mem _ hk
    rw [hg, hr, Option.some_or]

/-- The names that `to_synth` sets. -/
def fiveNames : List PName := [.per, .tp, .e, .w, .k]

theorem sim_synthPlanet {s0 : Store} {p : HParams} (hp : Refs s0.pars.length p.items) (b : BasisName) (nv : Bool) (i : Nat) {d : Dict Key Nat} {s : Store} {v : Dict Key (Parameter ℝ)} (h : Sim s0 p.items d s v) :
    match synthPlanetH b nv p i d s with
    | (.error e, s') => (synthOf b (getpar (s0.items p.items) (i + 1)) = .error e) ∧ s' = s
    | (.ok d', s') => ∃ x, synthOf b (getpar (s0.items p.items) (i + 1)) = .ok x ∧ Sim s0 p.items d' s' (setpars (s0.items p.items) (if nv then .blank else .yes) (i + 1) x.news v) ∧ s'.bases = s.bases ∧
        (∀ k, (∀ x ∈ fiveNames, k ≠ Key.orb x (i + 1)) → d'.get? k = d.get? k) ∧ ∀ x ∈ fiveNames, ∃ r, d'.get? (Key.orb x (i + 1)) = some r ∧ s0.pars.length ≤ r := by
  unfold synthPlanetH
  rw [items_ext h.pars hp]
  rcases hx : synthOf b (getpar (s0.items p.items) (i + 1)) with e | x
  · exact ⟨rfl, rfl⟩
  · obtain ⟨h1, h2, h3, h4⟩ := sim_setpars hp p.items (if nv then .blank else .yes) (i + 1) x.news h
    refine ⟨x, rfl, h1, h2, ?_, ?_⟩
    · intro k hk
      refine h3 k ?_
      simp only [Synth.news, List.map_cons, List.map_nil, List.mem_cons, List.not_mem_nil, or_false, not_or]
      exact ⟨hk _ (by simp [fiveNames]), hk _ (by simp [fiveNames]), hk _ (by simp [fiveNames]), hk _ (by simp [fiveNames]), hk _ (by simp [fiveNames])⟩
    · intro y hy
      refine h4 _ ?_
      simp only [fiveNames, List.mem_cons, List.not_mem_nil, or_false] at hy
      rcases hy with rfl | rfl | rfl | rfl | rfl <;> simp [Synth.news]

/-- The loop of `to_synth`. -/
theorem sim_synthLoop {s0 : Store} {p : HParams} (hp : Refs s0.pars.length p.items) (b : BasisName) (nv : Bool) : ∀ (l : List Nat) {d : Dict Key Nat} {s : Store} {v : Dict Key (Parameter ℝ)}, Sim s0 p.items d s v →
    match planetsH (synthPlanetH b nv p) l d s with
    | (.error e, s') => (l.foldlM (fun out i => do
        let s ← synthOf b (getpar (s0.items p.items) (i + 1))
        return setpars (s0.items p.items) (if nv then .blank else .yes) (i + 1) s.news out) v = .error e) ∧ s0.pars <+: s'.pars ∧ s'.bases = s.bases
    | (.ok d', s') => ∃ v', (l.foldlM (fun out i => do
        let s ← synthOf b (getpar (s0.items p.items) (i + 1))
        return setpars (s0.items p.items) (if nv then .blank else .yes) (i + 1) s.news out) v = .ok v') ∧ Sim s0 p.items d' s' v' ∧ s'.bases = s.bases ∧
        (∀ k, (∀ i ∈ l, ∀ x ∈ fiveNames, k ≠ Key.orb x (i + 1)) → d'.get? k = d.get? k) ∧ ∀ i ∈ l, ∀ x ∈ fiveNames, ∃ r, d'.get? (Key.orb x (i + 1)) = some r ∧ s0.pars.length ≤ r
  | [], d, s, v, h => ⟨v, rfl, h, rfl, fun _ _ => rfl, fun i hi => by simp at hi⟩
  | i :: l, d, s, v, h => by
    have h1 := sim_synthPlanet hp b nv i h
    simp only [List.foldlM_cons, planetsH]
    rcases hx : synthPlanetH b nv p i d s with ⟨e | d1, s1⟩
    · rw [hx] at h1
      obtain ⟨h1, rfl⟩ := h1
      rw [h1]
      exact ⟨rfl, h.pars, rfl⟩
    · rw [hx] at h1
      obtain ⟨x, e1, h2, h3, h4, h5⟩ := h1
      rw [e1]
      have h6 := sim_synthLoop hp b nv l h2
      simp only [bind, Except.bind, pure, Except.pure] at h6 ⊢
      rcases hy : planetsH (synthPlanetH b nv p) l d1 s1 with ⟨e | d2, s2⟩
      · rw [hy] at h6
        exact ⟨h6.1, h6.2.1, h6.2.2.trans h3⟩
      · rw [hy] at h6
        obtain ⟨v', e2, h7, h8, h9, h10⟩ := h6
        refine ⟨v', e2, h7, h8.trans h3, ?_, ?_⟩
        · intro k hk
          rw [h9 k fun j hj => hk j (List.mem_cons_of_mem _ hj), h4 k (hk i (by simp))]
        · intro j hj x hm
          by_cases hl : j ∈ l
          · exact h10 j hl x hm
          · obtain rfl : j = i := (List.mem_cons.1 hj).resolve_right hl
            obtain ⟨r, hr, hr'⟩ := h5 x hm
            refine ⟨r, ?_, hr'⟩
            rw [h9 _ ?_, hr]
            intro j' hj' x' _ he
            injection he with _ he
            obtain rfl : j = j' := by omega
            exact hl hj'

/-- `to_synth` with objects: it computes what `toSynth` computes, changes no existing object, and shares objects with its input. -/
theorem toSynthH_spec (dflt : ℝ) (b : BasisName) (nv : Bool) {p : HParams} {s : Store} (h : Valid s p) : match toSynthH dflt b nv p s with
    | (.error e, s') => toSynth dflt b nv (s.view p) = .error e ∧ s.pars <+: s'.pars ∧ s'.bases = s.bases ++ [s.basisName p.basis]
    | (.ok q, s') => toSynth dflt b nv (s.view p) = .ok (s'.view q) ∧ s.pars <+: s'.pars ∧ s'.bases = s.bases ++ [s.basisName p.basis] ++ [.perTpEWK] ∧ Valid s' q ∧ q.numPlanets = p.numPlanets ∧ q.letters = p.letters ∧
        q.planetParameters = BasisName.words .perTpEWK ∧ s'.basisName q.basis = .perTpEWK ∧
        (∀ k r, q.items.get? k = some r → s.pars.length ≤ r ∨ p.items.get? k = some r) ∧ (∀ k ∈ p.items.keys, (∀ x n, k ≠ Key.orb x n) → q.items.get? k = p.items.get? k) ∧
        ∀ n, 1 ≤ n → n ≤ p.numPlanets → ∀ x ∈ fiveNames, ∃ r, q.items.get? (.orb x n) = some r ∧ s.pars.length ≤ r := by
  obtain ⟨c1, c2, c3, c4, c5⟩ := sim_copy dflt h
  have h1 := sim_synthLoop h.refs b nv (List.range p.numPlanets) c1
  unfold toSynthH toSynth
  simp only [finishH]
  rcases hx : planetsH (synthPlanetH b nv p) (List.range p.numPlanets) (copyH dflt p s).1.items (copyH dflt p s).2 with ⟨e | d, s'⟩
  · rw [hx] at h1
    obtain ⟨h1, h2, h3⟩ := h1
    refine ⟨?_, h2, h3.trans c2⟩
    show Except.bind (List.foldlM _ _ _) _ = _
    unfold Store.view at h1 ⊢
    simp only at h1 ⊢
    rw [h1]
    rfl
  · rw [hx] at h1
    obtain ⟨v', h1, h2, h3, h4, h5⟩ := h1
    have hpre : s.bases <+: s.bases ++ [s.basisName p.basis] := List.prefix_append _ _
    refine ⟨?_, h2.pars, ?_, ⟨?_, h2.refs, h2.nodup⟩, c3, c4, rfl, ?_, h2.share, ?_, ?_⟩
    · show Except.bind (List.foldlM _ _ _) _ = _
      unfold Store.view at h1 ⊢
      simp only at h1 ⊢
      rw [h1]
      show Except.ok _ = Except.ok _
      congr 1
      have e1 : (Store.mk s'.pars (s'.bases ++ [BasisName.perTpEWK])).items d = v' := h2.items
      have e2 : (Store.mk s'.pars (s'.bases ++ [BasisName.perTpEWK])).basisName s'.bases.length = .perTpEWK := by
        unfold Store.basisName
        simp
      rw [e1, e2, c3, c4]
      rfl
    · show s'.bases ++ [BasisName.perTpEWK] = _
      rw [h3, c2]
    · show s'.bases.length < (s'.bases ++ [BasisName.perTpEWK]).length
      simp
    · show Store.basisName _ s'.bases.length = _
      unfold Store.basisName
      simp
    · intro k hk hno
      show d.get? k = _
      rw [h4 k (fun i _ x _ => hno x (i + 1)), c5 k hk]
    · intro n hn1 hn2 x hx
      obtain ⟨r, hr, hr'⟩ := h5 (n - 1) (by rw [List.mem_range]; omega) x hx
      have : n - 1 + 1 = n := by omega
      rw [this] at hr
      exact ⟨r, hr, hr'⟩

theorem newsOf_names (nb : BasisName) (hasTp : Bool) (g : PName → Except PyErr ℝ) {news : List (PName × ℝ)} (h : newsOf nb hasTp g = .ok news) : ∀ x ∈ newNames nb, x ∈ news.map Prod.fst := by
  have key : ∀ {α β : Type} (x : Except PyErr α) (f : α → Except PyErr β) {y : β}, (x >>= f) = .ok y → ∃ a, x = .ok a ∧ f a = .ok y := by
    intro α β x f y hy
    rcases x with e | a
    · cases hy
    · exact ⟨a, rfl, hy⟩
  unfold newsOf at h
  cases nb <;> simp only at h
  case perTpEWK =>
    intro x hx
    simp [newNames] at hx
  all_goals
    obtain ⟨_, _, h⟩ := key _ _ h
    obtain ⟨_, _, h⟩ := key _ _ h
    obtain ⟨_, _, h⟩ := key _ _ h
    obtain ⟨_, _, h⟩ := key _ _ h
    first
      | (injection h with h
         subst h
         simp [newNames])
      | (obtain ⟨⟨_, _⟩, _, h⟩ := key _ _ h
         injection h with h
         subst h
         simp [newNames])

theorem sim_rename {s0 s : Store} {pin d : Dict Key Nat} {v : Dict Key (Parameter ℝ)} (h : Sim s0 pin d s v) (bs : List BasisName) : Sim s0 pin d { s with bases := bs } v := ⟨h.pars, h.refs, h.items, h.nodup, h.share⟩

theorem sim_fromPlanet {s0 : Store} {p : HParams} (hp : Refs s0.pars.length p.items) (nb : BasisName) (keep : Bool) (self i : Nat) {d : Dict Key Nat} {s : Store} {v : Dict Key (Parameter ℝ)} (h : Sim s0 p.items d s v) :
    match fromPlanetH nb keep self p i d s with
    | (.error e, s') => ((do
        let news ← newsOf nb (decide (PName.tp ∈ p.planetParameters)) (getpar (s0.items p.items) (i + 1))
        delpars (i + 1) (if keep then [] else delsOf nb) (setpars (s0.items p.items) .yes (i + 1) news v)) = .error e) ∧ s0.pars <+: s'.pars ∧ s'.bases = s.bases
    | (.ok d', s') => ∃ v', ((do
        let news ← newsOf nb (decide (PName.tp ∈ p.planetParameters)) (getpar (s0.items p.items) (i + 1))
        delpars (i + 1) (if keep then [] else delsOf nb) (setpars (s0.items p.items) .yes (i + 1) news v)) = .ok v') ∧ Sim s0 p.items d' s' v' ∧
        s'.bases = (if renamesSelf nb then s.bases.set self nb else s.bases) ∧
        (∀ k, (∀ x, k ≠ Key.orb x (i + 1)) → d'.get? k = d.get? k) ∧ ∀ x ∈ newNames nb, ∀ r, d'.get? (Key.orb x (i + 1)) = some r → s0.pars.length ≤ r := by
  unfold fromPlanetH
  rw [items_ext h.pars hp]
  rcases hx : newsOf nb (decide (PName.tp ∈ p.planetParameters)) (getpar (s0.items p.items) (i + 1)) with e | news
  · exact ⟨rfl, h.pars, rfl⟩
  · obtain ⟨h1, h2, h3, h4⟩ := sim_setpars hp p.items .yes (i + 1) news h
    have h5 := sim_dels (i + 1) (if keep then [] else delsOf nb) h1
    simp only [bind, Except.bind]
    rcases hd : delparsH (i + 1) (if keep then [] else delsOf nb) (setparsH p .yes (i + 1) news (d, s)).1 with e | d'
    · rw [hd] at h5
      exact ⟨h5, h1.pars, h2⟩
    · rw [hd] at h5
      obtain ⟨v', e1, h6, h7, h8⟩ := h5
      refine ⟨v', e1, ?_, ?_, ?_, ?_⟩
      · by_cases hr : renamesSelf nb
        · rw [if_pos hr]
          exact sim_rename h6 _
        · rw [if_neg hr]
          exact h6
      · by_cases hr : renamesSelf nb
        · rw [if_pos hr, if_pos hr, h2]
        · rw [if_neg hr, if_neg hr, h2]
      · intro k hk
        rw [h7 k fun x _ => hk x, h3 k]
        intro hm
        obtain ⟨y, _, rfl⟩ := List.mem_map.1 hm
        exact hk y.1 rfl
      · intro x hx' r hr
        have hm := newsOf_names nb _ _ hx x hx'
        obtain ⟨y, hy, rfl⟩ := List.mem_map.1 hm
        obtain ⟨r', hr', hl⟩ := h4 (.orb y.1 (i + 1)) (List.mem_map.2 ⟨y, hy, rfl⟩)
        rw [h8 _ _ hr] at hr'
        cases hr'
        exact hl

/-- The loop of `from_synth`. -/
theorem sim_fromLoop {s0 : Store} {p : HParams} (hp : Refs s0.pars.length p.items) (nb : BasisName) (keep : Bool) (self : Nat) : ∀ (l : List Nat) {d : Dict Key Nat} {s : Store} {v : Dict Key (Parameter ℝ)}, Sim s0 p.items d s v →
    match planetsH (fromPlanetH nb keep self p) l d s with
    | (.error e, s') => (l.foldlM (fun out i => do
        let news ← newsOf nb (decide (PName.tp ∈ p.planetParameters)) (getpar (s0.items p.items) (i + 1))
        delpars (i + 1) (if keep then [] else delsOf nb) (setpars (s0.items p.items) .yes (i + 1) news out)) v = .error e) ∧ s0.pars <+: s'.pars ∧
        (s'.bases = s.bases ∨ renamesSelf nb = true ∧ s'.bases = s.bases.set self nb)
    | (.ok d', s') => ∃ v', (l.foldlM (fun out i => do
        let news ← newsOf nb (decide (PName.tp ∈ p.planetParameters)) (getpar (s0.items p.items) (i + 1))
        delpars (i + 1) (if keep then [] else delsOf nb) (setpars (s0.items p.items) .yes (i + 1) news out)) v = .ok v') ∧ Sim s0 p.items d' s' v' ∧
        s'.bases = (if 1 ≤ l.length ∧ renamesSelf nb then s.bases.set self nb else s.bases) ∧
        (∀ k, (∀ i ∈ l, ∀ x, k ≠ Key.orb x (i + 1)) → d'.get? k = d.get? k) ∧ ∀ i ∈ l, ∀ x ∈ newNames nb, ∀ r, d'.get? (Key.orb x (i + 1)) = some r → s0.pars.length ≤ r
  | [], d, s, v, h => ⟨v, rfl, h, rfl, fun _ _ => rfl, fun i hi => by simp at hi⟩
  | i :: l, d, s, v, h => by
    have h1 := sim_fromPlanet hp nb keep self i h
    simp only [List.foldlM_cons, planetsH]
    rcases hx : fromPlanetH nb keep self p i d s with ⟨e | d1, s1⟩
    · rw [hx] at h1
      obtain ⟨h1, h2, h3⟩ := h1
      simp only at h1 ⊢
      rw [h1]
      exact ⟨rfl, h2, .inl h3⟩
    · rw [hx] at h1
      obtain ⟨v1, e1, h2, h3, h4, h5⟩ := h1
      simp only
      rw [e1]
      have h6 := sim_fromLoop hp nb keep self l h2
      have hset : ∀ bs : List BasisName, (bs.set self nb).set self nb = bs.set self nb := fun bs => List.set_set _
      rcases hy : planetsH (fromPlanetH nb keep self p) l d1 s1 with ⟨e | d2, s2⟩
      · rw [hy] at h6
        obtain ⟨h6, h7, h8⟩ := h6
        refine ⟨h6, h7, ?_⟩
        by_cases hr : renamesSelf nb = true
        · rw [if_pos hr] at h3
          right
          refine ⟨hr, ?_⟩
          rcases h8 with h8 | ⟨_, h8⟩
          · rw [h8, h3]
          · rw [h8, h3, hset]
        · rw [if_neg hr] at h3
          rcases h8 with h8 | ⟨h8, _⟩
          · exact .inl (h8.trans h3)
          · exact absurd h8 hr
      · rw [hy] at h6
        obtain ⟨v', e2, h7, h8, h9, h10⟩ := h6
        refine ⟨v', e2, h7, ?_, ?_, ?_⟩
        · rw [h8]
          by_cases hr : renamesSelf nb = true
          · rw [if_pos hr] at h3
            rw [if_pos (c := 1 ≤ (i :: l).length ∧ _) ⟨by simp, hr⟩, h3, hset]
            split_ifs <;> rfl
          · rw [if_neg hr] at h3
            rw [if_neg (fun hc => hr hc.2), if_neg (fun hc => hr hc.2), h3]
        · intro k hk
          rw [h9 k fun j hj => hk j (List.mem_cons_of_mem _ hj), h4 k (hk i (by simp))]
        · intro j hj x hm r hr
          by_cases hl : j ∈ l
          · exact h10 j hl x hm r hr
          · obtain rfl : j = i := (List.mem_cons.1 hj).resolve_right hl
            rw [h9 _ ?_] at hr
            · exact h5 x hm r hr
            intro j' hj' x' he
            injection he with _ he
            obtain rfl : j = j' := by omega
            exact hl hj'

/-- `from_synth` with objects. -/
theorem fromSynthH_spec (dflt : ℝ) (nb : BasisName) (keep : Bool) (self : Nat) {p : HParams} {s : Store} (h : Valid s p) : match fromSynthH dflt nb keep self p s with
    | (.error e, s') => fromSynth dflt nb keep (s.view p) = .error e ∧ s.pars <+: s'.pars ∧ (s'.bases = s.bases ++ [s.basisName p.basis] ∨ renamesSelf nb = true ∧ s'.bases = (s.bases ++ [s.basisName p.basis]).set self nb)
    | (.ok q, s') => fromSynth dflt nb keep (s.view p) = .ok (s'.view q) ∧ s.pars <+: s'.pars ∧
        s'.bases = (if 1 ≤ p.numPlanets ∧ renamesSelf nb then (s.bases ++ [s.basisName p.basis]).set self nb else s.bases ++ [s.basisName p.basis]) ++ [nb] ∧ Valid s' q ∧ q.numPlanets = p.numPlanets ∧
        q.letters = p.letters ∧ q.planetParameters = nb.words ∧ s'.basisName q.basis = nb ∧
        (∀ k r, q.items.get? k = some r → s.pars.length ≤ r ∨ p.items.get? k = some r) ∧ (∀ k ∈ p.items.keys, (∀ x n, k ≠ Key.orb x n) → q.items.get? k = p.items.get? k) ∧
        ∀ n, 1 ≤ n → n ≤ p.numPlanets → ∀ x ∈ newNames nb, ∀ r, q.items.get? (.orb x n) = some r → s.pars.length ≤ r := by
  obtain ⟨c1, c2, c3, c4, c5⟩ := sim_copy dflt h
  have h1 := sim_fromLoop h.refs nb keep self (List.range p.numPlanets) c1
  unfold fromSynthH fromSynth
  simp only [finishH]
  rcases hx : planetsH (fromPlanetH nb keep self p) (List.range p.numPlanets) (copyH dflt p s).1.items (copyH dflt p s).2 with ⟨e | d, s'⟩
  · rw [hx] at h1
    obtain ⟨h1, h2, h3⟩ := h1
    refine ⟨?_, h2, by rw [← c2]; exact h3⟩
    show Except.bind (List.foldlM _ _ _) _ = _
    unfold Store.view at h1 ⊢
    simp only at h1 ⊢
    rw [h1]
    rfl
  · rw [hx] at h1
    obtain ⟨v', h1, h2, h3, h4, h5⟩ := h1
    refine ⟨?_, h2.pars, ?_, ⟨?_, h2.refs, h2.nodup⟩, c3, c4, rfl, ?_, h2.share, ?_, ?_⟩
    · show Except.bind (List.foldlM _ _ _) _ = _
      unfold Store.view at h1 ⊢
      simp only at h1 ⊢
      rw [h1]
      show Except.ok _ = Except.ok _
      congr 1
      have e1 : (Store.mk s'.pars (s'.bases ++ [nb])).items d = v' := h2.items
      have e2 : (Store.mk s'.pars (s'.bases ++ [nb])).basisName s'.bases.length = nb := by
        unfold Store.basisName
        simp
      rw [e1, e2, c3, c4]
      rfl
    · show s'.bases ++ [nb] = _
      rw [h3, c2, List.length_range]
    · show s'.bases.length < (s'.bases ++ [nb]).length
      simp
    · show Store.basisName _ s'.bases.length = _
      unfold Store.basisName
      simp
    · intro k hk hno
      show d.get? k = _
      rw [h4 k (fun i _ x => hno x (i + 1)), c5 k hk]
    · intro n hn1 hn2 x hx r hr
      have : n - 1 + 1 = n := by omega
      exact h5 (n - 1) (by rw [List.mem_range]; omega) x hx r (by rw [this]; exact hr)

theorem basisName_append {s : Store} {bs : List BasisName} {t : List (Parameter ℝ)} {r : Nat} (h : r < s.bases.length) : (Store.mk t (s.bases ++ bs)).basisName r = s.basisName r := by
  unfold Store.basisName
  simp only
  rw [List.getElem?_append_left h]

theorem view_eq {s s' : Store} {p : HParams} (h : Valid s p) (hp : s.pars <+: s'.pars) (hb : s'.basisName p.basis = s.basisName p.basis) : s'.view p = s.view p := by
  unfold Store.view
  rw [items_ext hp h.refs, hb]

theorem Refs.get {n : Nat} {d : Dict Key Nat} (h : Refs n d) {k : Key} {r : Nat} (hr : d.get? k = some r) : r < n := h _ (Dict.mem_of_get? _ hr)

/-- A write through a reference that `p` does not hold. -/
theorem view_write_ne {s : Store} {p : HParams} {r : Nat} {y : Parameter ℝ} (h : ∀ x ∈ p.items, x.2 ≠ r) : (Store.mk (s.pars.set r y) s.bases).view p = s.view p := by
  unfold Store.view
  have : (Store.mk (s.pars.set r y) s.bases).items p.items = s.items p.items := by
    unfold Store.items
    refine List.map_congr_left fun x hx => ?_
    unfold Store.par
    simp only
    rw [List.getElem?_set_ne (h x hx).symm]
  rw [this]
  rfl

/-- A write through a reference, read through any key that holds it. -/
theorem view_write_get {s : Store} {p : HParams} {r : Nat} {y : Parameter ℝ} {k : Key} (hr : p.items.get? k = some r) (hl : r < s.pars.length) : ((Store.mk (s.pars.set r y) s.bases).view p).items.get? k = some y := by
  unfold Store.view Store.items
  rw [get?_mapv, hr]
  unfold Store.par
  simp [hl]

theorem valid_init (dflt : ℝ) (N : Nat) (b : BasisName) (letters : Option (Dict Nat String)) (s : Store) : Valid (initH dflt N b letters s).2 (initH dflt N b letters s).1 ∧
    (initH dflt N b letters s).2.view (initH dflt N b letters s).1 = Params.init dflt N b letters := by
  have h0 : Sim s [] [] s [] := ⟨List.prefix_rfl, (by intro x hx; cases hx), rfl, List.nodup_nil, (by intro k r hr; cases hr)⟩
  obtain ⟨h1, hb⟩ := sim_defaults dflt (defaultKeys N b.words) h0
  refine ⟨⟨?_, h1.refs, h1.nodup⟩, ?_⟩
  · simp [initH]
  · unfold Store.view Params.init
    have e1 := h1.items
    have e2 : (initH dflt N b letters s).2.basisName (initH dflt N b letters s).1.basis = b := by
      simp [Store.basisName, initH]
    rw [e2]
    congr 1

theorem valid_bind {s : Store} {p : HParams} (h : Valid s p) (k : Key) (x : Parameter ℝ) : Valid (Store.bind k x (p.items, s)).2 { p with items := (Store.bind k x (p.items, s)).1 } ∧
    (Store.bind k x (p.items, s)).2.view { p with items := (Store.bind k x (p.items, s)).1 } = (s.view p).setItem k x := by
  have h0 : Sim s p.items p.items s (s.items p.items) := ⟨List.prefix_rfl, h.refs, rfl, h.nodup, fun k r hr => .inr hr⟩
  obtain ⟨h1, hb⟩ := sim_bind h0 k x
  refine ⟨⟨h.basis, h1.refs, h1.nodup⟩, ?_⟩
  unfold Store.view Params.setItem
  simp only
  rw [h1.items]
  rfl

end Radvel
