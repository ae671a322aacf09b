import Verif.Lemmas.BasisHeap
import Verif.Props.Basis
import Verif.Lemmas.Built

/-! # C14 and C166 with objects: what a basis conversion does to its input, and what it shares with it -/

namespace Radvel

/-- What is known after `to_any_basis`. -/
theorem toAnyBasisH_spec (dflt : ℝ) (nb : BasisName) {p : HParams} {s : Store} (h : Valid s p) : match toAnyBasisH dflt nb p s with
    | (.error e, s') => toAnyBasis dflt nb (s.view p) = .error e ∧ s.pars <+: s'.pars ∧ s.bases <+: s'.bases
    | (.ok q, s') => toAnyBasis dflt nb (s.view p) = .ok (s'.view q) ∧ s.pars <+: s'.pars ∧
        (∃ bs, s'.bases = (if 1 ≤ p.numPlanets ∧ renamesSelf nb then s.bases.set p.basis nb else s.bases) ++ bs) ∧ Valid s' q ∧
        (∀ k r, q.items.get? k = some r → s.pars.length ≤ r ∨ p.items.get? k = some r) ∧ (∀ k ∈ p.items.keys, (∀ x n, k ≠ Key.orb x n) → q.items.get? k = p.items.get? k) ∧
        ∀ n, 1 ≤ n → n ≤ p.numPlanets → ∀ x ∈ nb.words, ∃ r, q.items.get? (.orb x n) = some r ∧ s.pars.length ≤ r := by
  unfold toAnyBasisH toAnyBasis
  have h1 := toSynthH_spec dflt (s.basisName p.basis) true h
  rcases hx : toSynthH dflt (s.basisName p.basis) true p s with ⟨e | q, s1⟩
  · rw [hx] at h1
    obtain ⟨h1, h2, h3⟩ := h1
    refine ⟨?_, h2, ⟨_, h3.symm⟩⟩
    show Except.bind (toSynth dflt (s.basisName p.basis) true (s.view p)) _ = _
    rw [h1]
    rfl
  · rw [hx] at h1
    obtain ⟨h1, h2, h3, h4, h5, h6, h7, h8, h9, h10, h11⟩ := h1
    have hall : Complete (s1.view q) := by
      refine ⟨?_, ?_⟩
      · have := h4.nodup
        show (List.map Prod.fst (List.map _ q.items)).Nodup
        rw [List.map_map]
        exact this
      · intro x hx m hm
        have hb : (s1.view q).basis = .perTpEWK := h8
        rw [hb] at hx
        obtain ⟨r, hr, _⟩ := h11 m hm.1 (by rw [← h5]; exact hm.2) x hx
        rw [← Dict.get?_isSome_iff]
        show (Dict.get? (List.map _ q.items) _).isSome = true
        rw [get?_mapv, hr]
        rfl
    obtain ⟨w, hw, _, _, hwc, _⟩ := fromSynth_values dflt nb false (s1.view q) hall h8 h7
    have h12 := fromSynthH_spec dflt nb false p.basis h4
    simp only
    rcases hy : fromSynthH dflt nb false p.basis q s1 with ⟨e | q2, s2⟩
    · rw [hy] at h12
      rw [h12.1] at hw
      cases hw
    · rw [hy] at h12
      obtain ⟨i1, i2, i3, i4, i5, i6, i7, i8, i9, i10, i11⟩ := h12
      refine ⟨?_, h2.trans i2, ?_, i4, ?_, ?_, ?_⟩
      · show Except.bind (toSynth dflt (s.basisName p.basis) true (s.view p)) _ = _
        rw [h1]
        exact i1
      · rw [i3, h3, h5]
        have hset : ∀ (l t : List BasisName), p.basis < l.length → (l ++ t).set p.basis nb = l.set p.basis nb ++ t := fun l t hl => List.set_append_left _ _ hl
        split_ifs
        · refine ⟨[s.basisName p.basis] ++ [.perTpEWK] ++ [s1.basisName q.basis] ++ [nb], ?_⟩
          rw [List.append_assoc, List.append_assoc, hset _ _ h.basis]
          simp
        · exact ⟨[s.basisName p.basis] ++ [.perTpEWK] ++ [s1.basisName q.basis] ++ [nb], by simp⟩
      · intro k r hr
        rcases i9 k r hr with hr | hr
        · exact .inl (h2.length_le.trans hr)
        · exact h9 k r hr
      · intro k hk hno
        have hq := h10 k hk hno
        rw [i10 k ?_ hno, hq]
        rw [← Dict.get?_isSome_iff] at hk ⊢
        rw [hq]
        exact hk
      · intro n hn1 hn2 x hx
        rw [i1] at hw
        cases hw
        have hm := hwc.2 x (by rw [show (s2.view q2).basis = nb from i8]; exact hx) n ⟨hn1, by rw [show (s2.view q2).numPlanets = p.numPlanets from i5.trans h5]; exact hn2⟩
        rw [← Dict.get?_isSome_iff] at hm
        change (Dict.get? (List.map _ q2.items) _).isSome = true at hm
        rw [get?_mapv, Option.isSome_map] at hm
        obtain ⟨r, hr⟩ := Option.isSome_iff_exists.1 hm
        refine ⟨r, hr, ?_⟩
        rcases i9 _ r hr with hr' | hr'
        · exact h2.length_le.trans hr'
        · have hwd : x ∈ newNames nb ∨ x ∈ fiveNames := by
            have : ∀ x ∈ nb.words, x ∈ newNames nb ∨ x ∈ fiveNames := by cases nb <;> decide
            exact this x hx
          rcases hwd with hwd | hwd
          · exact h2.length_le.trans (i11 n hn1 (by rw [h5]; exact hn2) x hwd r hr)
          · obtain ⟨r', e1, e2⟩ := h11 n hn1 hn2 x hwd
            rw [e1] at hr'
            cases hr'
            exact e2

/-- C14 with objects: `params.basis.to_any_basis(params, nb)` changes no `Parameter` object that existed before, so all values, flags and keys of `params`, and of every other parameter set `p'`, are as before. If it raises, nothing that
existed has changed. If it succeeds, at most the name of the `Basis` object of `params` has changed, and it did so exactly if there is a planet and the target is one of five bases other than the current one (missing: unchanged in all
cases, see `C14_second_call_violated`). -/
theorem C14_objects_partial (dflt : ℝ) (nb : BasisName) (p : HParams) (s : Store) (h : Valid s p) : let r := toAnyBasisH dflt nb p s
    (∀ e, r.1 = .error e → toAnyBasis dflt nb (s.view p) = .error e ∧ ∀ p', Valid s p' → r.2.view p' = s.view p') ∧
    (∀ q, r.1 = .ok q → toAnyBasis dflt nb (s.view p) = .ok (r.2.view q) ∧ (∀ p', Valid s p' → (r.2.view p').items = (s.view p').items ∧ (p'.basis ≠ p.basis → r.2.view p' = s.view p')) ∧
      (r.2.view p = s.view p ↔ p.numPlanets = 0 ∨ nb = (s.view p).basis ∨ nb ∈ [BasisName.perTpEWK, .perTcEWK, .perTcTpEWK, .perTcSeWK, .perTcSecoswSesinwLogk]) ∧
      r.2.view p = inputAfter nb (s.view p)) := by
  intro r
  have h1 := toAnyBasisH_spec dflt nb h
  rcases hx : toAnyBasisH dflt nb p s with ⟨e | q, s'⟩
  · have hr : r = (.error e, s') := hx
    rw [hr]
    rw [hx] at h1
    obtain ⟨h1, h2, ⟨bs, h3⟩⟩ := h1
    refine ⟨?_, fun q hq => by cases hq⟩
    intro e' he
    cases he
    refine ⟨h1, fun p' hp' => view_eq hp' h2 ?_⟩
    unfold Store.basisName
    rw [← h3, List.getElem?_append_left hp'.basis]
  · have hr : r = (.ok q, s') := hx
    rw [hr]
    rw [hx] at h1
    obtain ⟨h1, h2, ⟨bs, h3⟩, -⟩ := h1
    have hne : ∀ p', Valid s p' → p'.basis ≠ p.basis → s'.basisName p'.basis = s.basisName p'.basis := by
      intro p' hp' hb
      unfold Store.basisName
      rw [h3]
      split_ifs
      · rw [List.getElem?_append_left (by rw [List.length_set]; exact hp'.basis), List.getElem?_set_ne hb.symm]
      · rw [List.getElem?_append_left hp'.basis]
    have hself : s'.view p = inputAfter nb (s.view p) := by
      unfold Store.view inputAfter selfNameAfter
      simp only
      rw [items_ext h2 h.refs]
      congr 1
      unfold Store.basisName
      rw [h3]
      split_ifs
      · rw [List.getElem?_append_left (by rw [List.length_set]; exact h.basis)]
        simp [h.basis]
      · rw [List.getElem?_append_left h.basis]
    refine ⟨fun e he => (by cases he), ?_⟩
    intro q' hq
    cases hq
    refine ⟨h1, fun p' hp' => ⟨?_, fun hb => view_eq hp' h2 (hne p' hp' hb)⟩, ?_, hself⟩
    · show s'.items p'.items = s.items p'.items
      exact items_ext h2 hp'.refs
    · show s'.view p = s.view p ↔ _
      rw [hself]
      rw [show (p.numPlanets = 0) = ((s.view p).numPlanets = 0) from rfl, ← (C14_input_partial nb (s.view p)).2]
      constructor
      · intro hh
        rw [hh]
      · intro hh
        unfold inputAfter at hh ⊢
        simp only at hh
        rw [hh]

/-- The store with one parameter set of three planets and `dvdt`, made by `Parameters(3, basis='per tp e w k')` and `params['dvdt'] = Parameter(value=2)`. -/
noncomputable def heapExample : HParams × Store :=
  let x := initH 1 3 .perTpEWK none ⟨[], []⟩
  let y := Store.bind .dvdt { value := 2 } (x.1.items, x.2)
  ({ x.1 with items := y.1 }, y.2)

theorem heapExample_ok : Valid heapExample.2 heapExample.1 ∧ heapExample.2.view heapExample.1 = (Params.init (1 : ℝ) 3 .perTpEWK none).setItem .dvdt { value := 2 } := by
  obtain ⟨h1, h2⟩ := valid_init 1 3 .perTpEWK none ⟨[], []⟩
  obtain ⟨h3, h4⟩ := valid_bind h1 .dvdt { value := 2 }
  refine ⟨h3, ?_⟩
  rw [← h2]
  exact h4

/-- Non-vacuity of `C14_objects_partial`: every conversion of this parameter set succeeds; an exception is raised for a set without its keys. -/
example (nb : BasisName) : (∃ q, (toAnyBasisH 0 nb heapExample.1 heapExample.2).1 = .ok q) ∧ Valid ⟨[], [.perTcEWK]⟩ ⟨1, 0, [], none, []⟩ ∧
    toAnyBasis 0 nb ((Store.mk [] [.perTcEWK]).view ⟨1, 0, [], none, []⟩) = .error .keyError := by
  refine ⟨?_, ⟨by decide, (by intro x hx; cases hx), List.nodup_nil⟩, ?_⟩
  · obtain ⟨h1, h2⟩ := heapExample_ok
    have hu : UserParams (heapExample.2.view heapExample.1) := by
      rw [h2]
      exact .set _ _ _ (.new _ _ _ _ (by decide)) (.inr (.inl rfl)) (by decide)
    obtain ⟨_, q, _, e1, _⟩ := toAnyBasis_spec 0 nb _ hu.good.complete
    obtain ⟨a, b⟩ := C14_objects_partial 0 nb _ _ h1
    rcases hx : (toAnyBasisH 0 nb heapExample.1 heapExample.2).1 with e | q'
    · have := (a e hx).1
      rw [e1] at this
      cases this
    · exact ⟨q', rfl⟩
  · unfold toAnyBasis toSynth
    rfl

/-- C14 is false as a history of two calls on the same objects: the first conversion of a synth set to one of five bases succeeds, the second, made with the same `params` right afterwards, raises `KeyError`. -/
theorem C14_twice_violated (dflt : ℝ) (nb : BasisName) (p : HParams) (s : Store) (h : Valid s p) (hu : UserParams (s.view p)) (hb : (s.view p).basis = .perTpEWK) (hN : 1 ≤ p.numPlanets)
    (hnb : nb ∈ [BasisName.perTcSecoswSesinwK, .logperTcSecoswSesinwK, .logperTcSecoswSesinwLogk, .perTcEcoswEsinwK, .logperTpEWLogk]) :
    (∃ q, (toAnyBasisH dflt nb p s).1 = .ok q) ∧ (toAnyBasisH dflt nb p (toAnyBasisH dflt nb p s).2).1 = .error .keyError := by
  obtain ⟨⟨w, hw⟩, -, h2⟩ := C14_second_call_violated dflt nb (s.view p) hu hb hN hnb
  obtain ⟨a, b⟩ := C14_objects_partial dflt nb p s h
  have h1 := toAnyBasisH_spec dflt nb h
  rcases hx : toAnyBasisH dflt nb p s with ⟨e | q, s'⟩
  · have := (a e (by rw [hx])).1
    rw [hw] at this
    cases this
  · refine ⟨⟨q, rfl⟩, ?_⟩
    obtain ⟨-, -, -, b4⟩ := b q (by rw [hx])
    rw [hx] at b4 h1
    obtain ⟨-, hpre, ⟨bs, hbs⟩, -⟩ := h1
    have hv : Valid s' p := by
      refine ⟨?_, h.refs.mono hpre.length_le, h.nodup⟩
      rw [hbs, List.length_append]
      have := h.basis
      split_ifs
      · rw [List.length_set]
        omega
      · omega
    have h3 := C14_objects_partial dflt nb p s' hv
    simp only at h3 b4 ⊢
    rw [b4, h2] at h3
    rcases hy : (toAnyBasisH dflt nb p s').1 with e | q'
    · have := (h3.1 e hy).1
      injection this with this
      rw [this]
    · have := (h3.2 q' hy).1
      cases this

example : Valid heapExample.2 heapExample.1 ∧ UserParams (heapExample.2.view heapExample.1) ∧ (heapExample.2.view heapExample.1).basis = .perTpEWK ∧ 1 ≤ heapExample.1.numPlanets := by
  refine ⟨heapExample_ok.1, ?_, ?_, by decide⟩
  · rw [heapExample_ok.2]
    exact .set _ _ _ (.new _ _ _ _ (by decide)) (.inr (.inl rfl)) (by decide)
  · rw [heapExample_ok.2]
    rfl

/-- C166: after a successful conversion, every orbital parameter of the new basis is a new object: whatever is written to it in the result (a value, a flag, a scale) is what the result then reads, and no parameter set that existed before
is affected, the input included (missing: the other parameters, see `C166_shared_violated`). -/
theorem C166_fresh_partial (dflt : ℝ) (nb : BasisName) (p q : HParams) (s s' : Store) (h : Valid s p) (hq : toAnyBasisH dflt nb p s = (.ok q, s')) (x : PName) (hx : x ∈ nb.words) (n : Nat) (hn1 : 1 ≤ n) (hn2 : n ≤ p.numPlanets)
    (y : Parameter ℝ) : ∃ s'', s'.write q (.orb x n) y = .ok s'' ∧ (s''.view q).items.get? (.orb x n) = some y ∧ ∀ p', Valid s p' → s''.view p' = s'.view p' := by
  have h1 := toAnyBasisH_spec dflt nb h
  rw [hq] at h1
  obtain ⟨-, -, -, h2, -, -, h3⟩ := h1
  obtain ⟨r, hr, hl⟩ := h3 n hn1 hn2 x hx
  refine ⟨⟨s'.pars.set r y, s'.bases⟩, ?_, view_write_get hr (h2.refs.get hr), ?_⟩
  · unfold Store.write
    rw [hr]
  · intro p' hp'
    refine view_write_ne fun z hz => ?_
    have := hp'.refs z hz
    omega

/-- C166 is false for the parameters that are not orbital elements: `gamma`, `jit`, `dvdt`, `curv` and all others of the input are the same objects in the result. Whatever is written to one of them in the result is also in the input,
and whatever is written to it in the input is also in the result: freezing `dvdt` in a converted set freezes it in the original, and a fit made with one set moves the offsets of the other. This holds for all bases, values and numbers of planets. -/
theorem C166_shared_violated (dflt : ℝ) (nb : BasisName) (p q : HParams) (s s' : Store) (h : Valid s p) (hq : toAnyBasisH dflt nb p s = (.ok q, s')) (k : Key) (hk : k ∈ p.items.keys) (hno : ∀ x n, k ≠ Key.orb x n) (y : Parameter ℝ) :
    ∃ s'', s'.write q k y = .ok s'' ∧ s'.write p k y = .ok s'' ∧ (s''.view q).items.get? k = some y ∧ (s''.view p).items.get? k = some y := by
  have h1 := toAnyBasisH_spec dflt nb h
  rw [hq] at h1
  obtain ⟨-, hpre, -, h2, -, h3, -⟩ := h1
  obtain ⟨r, hr⟩ := Dict.exists_get?_of_mem _ hk
  have hr' := h3 k hk hno
  rw [hr] at hr'
  refine ⟨⟨s'.pars.set r y, s'.bases⟩, ?_, ?_, view_write_get hr' (h2.refs.get hr'), view_write_get hr ((h.refs.get hr).trans_le hpre.length_le)⟩
  · unfold Store.write
    rw [hr']
  · unfold Store.write
    rw [hr]

/-- Non-vacuity of `C166_fresh_partial` and `C166_shared_violated`: a set of three planets with `dvdt` (see `heapExample_ok`), whose conversion succeeds by the example above. -/
example : Valid heapExample.2 heapExample.1 ∧ Key.dvdt ∈ heapExample.1.items.keys ∧ (∀ x n, Key.dvdt ≠ Key.orb x n) ∧ heapExample.1.numPlanets = 3 ∧ PName.secosw ∈ BasisName.words .perTcSecoswSesinwK := by
  refine ⟨heapExample_ok.1, ?_, (by intro _ _ h; cases h), rfl, (by decide)⟩
  show Key.dvdt ∈ Dict.keys (Dict.set _ Key.dvdt _)
  rw [Dict.mem_keys_set]
  simp

end Radvel
