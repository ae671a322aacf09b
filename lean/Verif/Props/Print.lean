import Verif.Lemmas.Print
import Verif.Lemmas.Driver

/-!
# C156: what printing a likelihood or a posterior shows, and what it does

`Likelihood.__repr__`, /repo/radvel/likelihood.py 52-139, and `Posterior.__repr__`, /repo/radvel/posterior.py 30-36.
-/

namespace Radvel

theorem element_valOf (o : Synth) {x : PName} (hx : x ∈ BasisName.words .perTpEWK) : o.element x = some (valOf o x) := by
  revert hx
  cases x <;> first | (intro _; rfl) | (intro h; exact absurd h (by decide))

/-- C156, lines: printing a likelihood never fails. It shows one line for every parameter, in the order of the dictionary, with the value that the vector has for it, its flag and its
uncertainty; then one line for each of the five orbital elements of each planet that is not a parameter, with the planet's value. -/
theorem C156_lines (dflt tb : ℝ) (u : Option (Dict Key ℝ)) (s : VState ℝ) (hb : Built s) :
    ∃ s' own der orb, printLines dflt tb u s = .ok (s', own ++ der) ∧
      own.map PrintLine.key = s.params.items.keys ∧ ((own ++ der).map PrintLine.key).Nodup ∧
      (∀ l ∈ own, ∃ par r, s.params.items.get? l.key = some par ∧ RowOf s l.key r ∧ Shown tb l.key r.value l.value ∧ l.vary = par.vary ∧ ShownErr u l.key l.err) ∧
      (∀ k, k ∈ der.map PrintLine.key ↔ ∃ x m, k = .orb x m ∧ x ∈ [PName.per, .tp, .e, .w, .k] ∧ x ∉ s.params.basis.words ∧ IsPlanet s.params m) ∧
      Elements s'.params orb ∧
      (∀ l ∈ der, ∀ x m, l.key = .orb x m → ∃ v, (orb m).element x = some v ∧ Shown tb l.key v l.value ∧ l.vary = .blank ∧ ShownErr u l.key l.err) := by
  obtain ⟨s', b1, b2, b3, b4, b5, b6, b7, _, b8, b9, b10⟩ := toDict_spec hb.inv.1 hb.inv.2
  have hb' : Built s' := .toDict s s' hb b1
  have hc := complete_of_built hb'
  obtain ⟨q, e1, e2, e3, e4, e5, _, e7, e8⟩ := toSynth_spec dflt true s'.params _ hc.hasVals
  have hw : BasisName.words .perTpEWK = [PName.per, .tp, .e, .w, .k] := rfl
  -- the derived keys
  have hder : ∀ k, (k ∈ q.items.keys ∧ s'.params.items.has k = false) ↔ ∃ x m, k = .orb x m ∧ x ∈ [PName.per, .tp, .e, .w, .k] ∧ x ∉ s.params.basis.words ∧ IsPlanet s.params m := by
    intro k
    constructor
    · rintro ⟨h1, h2⟩
      have h2' : k ∉ s'.params.items.keys := fun h => by rw [(Dict.has_iff _ _).2 h] at h2; cases h2
      by_cases hk : ∃ x m, 1 ≤ m ∧ m ≤ s'.params.numPlanets ∧ k = .orb x m
      · obtain ⟨x, m, hm1, hm2, rfl⟩ := hk
        have := e7 x m hm1 hm2
        by_cases hx : x ∈ BasisName.words .perTpEWK
        · refine ⟨x, m, rfl, hw ▸ hx, fun hxb => h2' ?_, hm1, b6 ▸ hm2⟩
          exact hc.2 x (b7.symm ▸ hxb) m ⟨hm1, hm2⟩
        · rw [if_neg hx] at this
          rw [← Dict.get?_isSome_iff, this, Dict.get?_isSome_iff] at h1
          exact absurd h1 h2'
      · push Not at hk
        have := e8 k (fun x m h1 h2 => hk x m h1 h2)
        rw [← Dict.get?_isSome_iff, this, Dict.get?_isSome_iff] at h1
        exact absurd h1 h2'
    · rintro ⟨x, m, rfl, hx, hxb, hm1, hm2⟩
      refine ⟨?_, ?_⟩
      · rw [← Dict.get?_isSome_iff, e7 x m hm1 (b6.symm ▸ hm2), if_pos (hw ▸ hx)]
        rfl
      · rw [← Bool.not_eq_true, Dict.has_iff, b5]
        exact fun h => hxb ((hb.inv.1.orb x m).1 h).1
  refine ⟨s', s'.params.items.map (printLine tb u), (q.items.filter fun x => !s'.params.items.has x.1).map (printLine tb u), fun m => synthOfVals s'.params.basis (valsOf s'.params m),
    ?_, ?_, ?_, ?_, ?_, elements_exist _ hc, ?_⟩
  · unfold printLines
    rw [b1]
    simp only [e1]
  · rw [List.map_map, ← b5]; rfl
  · rw [List.map_append, List.map_map, List.map_map]
    have h1 : (s'.params.items.map (PrintLine.key ∘ printLine tb u)) = s'.params.items.keys := rfl
    have h2 : ((q.items.filter fun x => !s'.params.items.has x.1).map (PrintLine.key ∘ printLine tb u)) = q.items.keys.filter fun k => !s'.params.items.has k := by
      unfold Dict.keys
      rw [List.filter_map]; rfl
    rw [h1, h2, List.nodup_append]
    refine ⟨hc.1, e2.filter _, ?_⟩
    intro a ha b hb2 hab
    subst hab
    rw [List.mem_filter, (Dict.has_iff _ _).2 ha] at hb2
    simp at hb2
  · intro l hl
    obtain ⟨⟨k, par'⟩, hx, rfl⟩ := List.mem_map.1 hl
    have hg' := Dict.get?_of_mem_nodup _ hc.1 hx
    obtain ⟨par, hp⟩ := Dict.exists_get?_of_mem _ (b5 ▸ Dict.mem_keys_of_get? _ hg' : k ∈ s.params.items.keys)
    obtain ⟨i, r, h1, h2, h3⟩ := b8 k par hp
    rw [hg'] at h3; cases h3
    exact ⟨par, r, hp, ⟨i, h1, h2⟩, printed_shown tb k r.value, rfl, printLine_err tb u (k, _)⟩
  · intro k
    rw [← hder k, List.map_map]
    constructor
    · intro h
      obtain ⟨x, hx, rfl⟩ := List.mem_map.1 h
      rw [List.mem_filter] at hx
      exact ⟨List.mem_map_of_mem hx.1, (by simpa using hx.2 : s'.params.items.has x.1 = false)⟩
    · rintro ⟨h1, h2⟩
      obtain ⟨x, hx, rfl⟩ := List.mem_map.1 h1
      exact List.mem_map.2 ⟨x, List.mem_filter.2 ⟨hx, by rw [h2]; rfl⟩, rfl⟩
  · intro l hl x m hlx
    obtain ⟨⟨k, par⟩, hx, rfl⟩ := List.mem_map.1 hl
    rw [List.mem_filter] at hx
    have hkx : k = .orb x m := hlx
    subst hkx
    have hn : s'.params.items.has (.orb x m) = false := by simpa using hx.2
    obtain ⟨x', m', he, hx1, hx2, hm1, hm2⟩ := (hder (.orb x m)).1 ⟨List.mem_map_of_mem hx.1, hn⟩
    cases he
    have hg := Dict.get?_of_mem_nodup _ e2 hx.1
    rw [e7 x m hm1 (b6.symm ▸ hm2), if_pos (hw ▸ hx1)] at hg
    have hnone : s'.params.items.get? (.orb x m) = none := by
      rw [Dict.get?_eq_none_iff]
      intro h
      rw [(Dict.has_iff _ _).2 h] at hn; cases hn
    unfold newPar at hg
    rw [hnone] at hg
    cases hg
    exact ⟨_, element_valOf _ (hw ▸ hx1), printed_shown tb _ _, rfl, printLine_err tb u (_, _)⟩

/-- A model with one planet has lines for the times and shapes its basis leaves out. -/
theorem printExample : ∃ s : VState ℝ, Built s ∧ s.params.basis = .perTcSecoswSesinwK ∧ IsPlanet s.params 1 ∧ .orb .per 1 ∈ s.params.items.keys := by
  have hu : UserParams (Params.init (7 : ℝ) 1 .perTcSecoswSesinwK none) := .new 7 1 .perTcSecoswSesinwK none (by decide)
  obtain ⟨s, h1, h2, _, _⟩ := C01_model _ hu
  exact ⟨s, .model _ _ hu h1, by rw [h2]; rfl, by rw [h2]; exact ⟨le_refl _, le_refl _⟩, by rw [h2]; decide⟩

example (dflt tb : ℝ) (u : Option (Dict Key ℝ)) : ∃ s s' ls, Built s ∧ printLines dflt tb u s = .ok (s', ls) ∧ .orb .per 1 ∈ ls.map PrintLine.key ∧ .orb .tp 1 ∈ ls.map PrintLine.key ∧ .orb .e 1 ∈ ls.map PrintLine.key := by
  obtain ⟨s, hb, h1, h2, h3⟩ := printExample
  obtain ⟨s', own, der, orb, e1, e2, _, _, e5, _⟩ := C156_lines dflt tb u s hb
  refine ⟨s, s', _, hb, e1, ?_, ?_, ?_⟩ <;> rw [List.map_append, List.mem_append]
  · exact .inl (e2 ▸ h3)
  · exact .inr ((e5 _).2 ⟨.tp, 1, rfl, by decide, by rw [h1]; decide, h2⟩)
  · exact .inr ((e5 _).2 ⟨.e, 1, rfl, by decide, by rw [h1]; decide, h2⟩)

/-! ## what printing does -/

theorem printLines_dict {dflt tb : ℝ} {u : Option (Dict Key ℝ)} {s s' : VState ℝ} {ls : List PrintLine} (h : printLines dflt tb u s = .ok (s', ls)) : s.vectorToDict = .ok s' := by
  unfold printLines at h
  rcases hd : s.vectorToDict with e | t
  · rw [hd] at h; cases h
  · rw [hd] at h
    simp only at h
    rcases hq : toSynth dflt t.params.basis true t.params with e | q
    · rw [hq] at h
      cases e <;> cases h
      rfl
    · rw [hq] at h; cases h; rfl

theorem vectorToDict_same {s s' : VState ℝ} (h : s.vectorToDict = .ok s') : SameVector s s' ∧ s'.names = s.names ∧ s' = { s with params := { s.params with items := s'.params.items } } := by
  unfold VState.vectorToDict at h
  split at h
  · cases h; exact ⟨⟨rfl, rfl, rfl, rfl⟩, rfl, rfl⟩
  · cases h

/-- C156, effect: printing does not touch the vector. Whatever calls of `logprob_array` and `likelihood_ns_array` come before the next evaluation, its result is the one it would have had
without printing. -/
theorem C156_effect (drive : Drive) (mtb : ℝ) (Ls : List RVLike) (dflt tb : ℝ) (u : Option (Dict Key ℝ)) (p : PostState) (s' : VState ℝ) (ls : List PrintLine)
    (h : printLines dflt tb u p.st = .ok (s', ls)) (calls : List PostCall) (xs : List ℝ) :
    let like := compositeLogprob (Ls.map fun L => L.logprob fun s t => modelCall drive mtb s none t)
    s'.rows = p.st.rows ∧ s'.indices = p.st.indices ∧ s'.names = p.st.names ∧
      ((({ p with st := s' } : PostState).runAll like calls).logprobArray like xs).2 = ((p.runAll like calls).logprobArray like xs).2 := by
  intro like
  obtain ⟨h1, h2, _⟩ := vectorToDict_same (printLines_dict h)
  have hl : LikeEval.VectorOnly like := composite_vectorOnly (modelCall_dictFree drive mtb) Ls
  refine ⟨h1.rows, h1.indices, h2, ?_⟩
  exact (logprobArray_same hl (runAll_same hl calls (p := p) (p' := { p with st := s' }) ⟨h1, rfl, rfl, rfl⟩) xs).2

/-- C156, again: printing twice shows the same twice, and the second printing changes nothing at all. -/
theorem C156_again (dflt tb : ℝ) (u : Option (Dict Key ℝ)) (s s' : VState ℝ) (ls : List PrintLine) (hb : Built s) (h : printLines dflt tb u s = .ok (s', ls)) :
    printLines dflt tb u s' = .ok (s', ls) := by
  have hd := printLines_dict h
  have hb' : Built s' := .toDict s s' hb hd
  obtain ⟨s2, b1, b2, b3, b4, b5, b6, b7, _, b8, _⟩ := toDict_spec hb'.inv.1 hb'.inv.2
  have hitems : s2.params.items = s'.params.items := by
    refine Dict.ext_of_keys _ _ ?_ b5 ?_
    · rw [b5]; exact hb'.inv.1.nodup
    · intro k hk
      rw [b5] at hk
      obtain ⟨q, hq⟩ := Dict.exists_get?_of_mem _ hk
      obtain ⟨i, r, c1, c2, c3⟩ := b8 k q hq
      obtain ⟨r', ⟨j, d1, d2⟩, d3⟩ := dictValues_of hb hd k q hq
      rw [d1] at c1; cases c1
      rw [d2] at c2; cases c2
      rw [c3, hq, ← d3]
  have hs2 : s2 = s' := by
    rw [(vectorToDict_same b1).2.2, hitems]
  subst hs2
  unfold printLines at h ⊢
  rw [hd] at h
  rw [b1]
  exact h

example (dflt tb : ℝ) (u : Option (Dict Key ℝ)) : ∃ (p : PostState) (s' : VState ℝ) (ls : List PrintLine), Built p.st ∧ printLines dflt tb u p.st = .ok (s', ls) := by
  obtain ⟨s, hb, _⟩ := printExample
  obtain ⟨s', own, der, orb, e1, _⟩ := C156_lines dflt tb u s hb
  exact ⟨{ st := s, likeCache := none, postCache := none, priors := [] }, s', _, hb, e1⟩

/-- C156 is violated for values that were edited in the dictionary: printing sets them back. If the value of a parameter is changed with `params[k].value = v` and the vector is rebuilt from the
dictionary, the vector has the new value; if the likelihood is printed in between, the table shows the old value, the dictionary has the old value again and so has the rebuilt vector. -/
theorem C156_edit_violated (dflt tb : ℝ) (u : Option (Dict Key ℝ)) (s : VState ℝ) (hb : Built s) (k : Key) (par : Parameter ℝ) (hk : s.params.items.get? k = some par) (v : ℝ) :
    let edited : VState ℝ := { s with params := s.params.setItem k { par with value := v } }
    (∃ t r, edited.dictToVector = .ok t ∧ RowOf t k r ∧ r.value = v) ∧
    ∃ r0, RowOf s k r0 ∧ ∃ s' ls t r, printLines dflt tb u edited = .ok (s', ls) ∧ (∀ l ∈ ls, l.key = k → Shown tb k r0.value l.value) ∧
      s'.params.items.get? k = some { par with value := r0.value } ∧ s'.dictToVector = .ok t ∧ RowOf t k r ∧ r.value = r0.value := by
  intro edited
  have hbl : par.vary ≠ .blank := hb.inv.1.noblank k par hk
  have hb2 : Built edited := .edit s k { par with value := v } hb (.inl (Dict.mem_keys_of_get? _ hk)) hbl
  have hk2 : edited.params.items.get? k = some { par with value := v } := Dict.get?_set_self _ _ _
  refine ⟨?_, ?_⟩
  · obtain ⟨t, a1, a2, a3, a4, _⟩ := sync_fresh hb2.inv.1 hb2.inv.2
    obtain ⟨i, r, c1, c2, c3, _⟩ := synced_of_fresh a2 k { par with value := v } (by rw [a3]; exact hk2)
    exact ⟨t, r, a1, ⟨i, c1, c2⟩, c3⟩
  · obtain ⟨s', own, der, orb, e1, e2, e3, e4, e5, e6, e7⟩ := C156_lines dflt tb u edited hb2
    obtain ⟨s2, b1, b2, b3, b4, b5, b6, b7, _, b8, _⟩ := toDict_spec hb2.inv.1 hb2.inv.2
    rw [printLines_dict e1] at b1; cases b1
    obtain ⟨i, r0, c1, c2, c3⟩ := b8 k _ hk2
    have hb3 : Built s' := .toDict edited s' hb2 (printLines_dict e1)
    obtain ⟨t, a1, a2, a3, a4, _⟩ := sync_fresh hb3.inv.1 hb3.inv.2
    obtain ⟨j, r, d1, d2, d3, _⟩ := synced_of_fresh a2 k _ (by rw [a3]; exact c3)
    refine ⟨r0, ⟨i, c1, c2⟩, s', _, t, r, e1, ?_, c3, a1, ⟨j, d1, d2⟩, d3⟩
    intro l hl hlk
    rcases List.mem_append.1 hl with hl | hl
    · obtain ⟨_, r', _, ⟨i', f1, f2⟩, f3, _⟩ := e4 l hl
      rw [hlk] at f1 f3
      rw [c1] at f1; cases f1
      rw [c2] at f2; cases f2
      exact f3
    · obtain ⟨x, m, g1, _, g2, _⟩ := (e5 l.key).1 (List.mem_map_of_mem hl)
      have := Dict.mem_keys_of_get? _ hk2
      rw [← hlk, g1] at this
      exact absurd ((hb2.inv.1.orb x m).1 this).1 g2

/-- C156 is violated for flags that were edited in the dictionary: printing shows the new flag, but what is fitted is still decided by the vector, which has the old one until it is rebuilt. -/
theorem C156_flag_violated (dflt tb : ℝ) (u : Option (Dict Key ℝ)) (s : VState ℝ) (hb : Built s) (hsy : Synced s) (k : Key) (par : Parameter ℝ) (hk : s.params.items.get? k = some par)
    (hv : par.vary = .yes) :
    ∃ s' ls, printLines dflt tb u { s with params := s.params.setItem k { par with vary := .no } } = .ok (s', ls) ∧
      (∃ l ∈ ls, l.key = k ∧ l.vary = .no) ∧ (∀ l ∈ ls, l.key = k → l.vary = .no) ∧ ∃ i r, s'.indices.get? k = some i ∧ s'.rows[i]? = some r ∧ r.vary = true ∧ i ∈ freeRows s'.rows := by
  have hb2 : Built ({ s with params := s.params.setItem k { par with vary := .no } } : VState ℝ) :=
    .edit s k { par with vary := .no } hb (.inl (Dict.mem_keys_of_get? _ hk)) (by simp)
  have hk2 : (s.params.setItem k { par with vary := .no }).items.get? k = some { par with vary := .no } := Dict.get?_set_self _ _ _
  obtain ⟨s', own, der, orb, e1, e2, e3, e4, e5, e6, e7⟩ := C156_lines dflt tb u _ hb2
  obtain ⟨h1, _⟩ := vectorToDict_same (printLines_dict e1)
  obtain ⟨i, r, c1, c2, _, c3, _⟩ := hsy k par hk
  have hown : ∀ l ∈ own, l.key = k → l.vary = .no := by
    intro l hl hlk
    obtain ⟨par', _, f1, _, _, f2, _⟩ := e4 l hl
    rw [hlk, hk2] at f1; cases f1
    exact f2
  have hmem : k ∈ own.map PrintLine.key := e2 ▸ Dict.mem_keys_of_get? _ hk2
  refine ⟨s', _, e1, ?_, ?_, i, r, by rw [h1.indices]; exact c1, by rw [h1.rows]; exact c2, c3.2 hv, ?_⟩
  · obtain ⟨l, hl, hlk⟩ := List.mem_map.1 hmem
    exact ⟨l, List.mem_append_left _ hl, hlk, hown l hl hlk⟩
  · intro l hl hlk
    rcases List.mem_append.1 hl with hl | hl
    · exact hown l hl hlk
    · obtain ⟨x, m, g1, _, g2, _⟩ := (e5 l.key).1 (List.mem_map_of_mem hl)
      exact absurd ((hb2.inv.1.orb x m).1 ((hlk.symm.trans g1) ▸ Dict.mem_keys_of_get? _ hk2)).1 g2
  · rw [h1.rows]
    exact (mem_freeRows _ _).2 ⟨r, c2, c3.2 hv⟩

example (dflt tb : ℝ) (u : Option (Dict Key ℝ)) : ∃ s k par, Built s ∧ Synced s ∧ s.params.items.get? k = some par ∧ par.vary = .yes ∧
    ∃ s' ls, printLines dflt tb u { s with params := s.params.setItem k { par with vary := .no } } = .ok (s', ls) := by
  have hu : UserParams (Params.init (7 : ℝ) 1 .perTcSecoswSesinwK none) := .new 7 1 .perTcSecoswSesinwK none (by decide)
  obtain ⟨s, h1, h2, _, h4⟩ := C01_model _ hu
  have hb : Built s := .model _ _ hu h1
  have hk : s.params.items.get? (.orb .per 1) = some { value := 7, vary := .yes, mcmcscale := none } := by rw [h2]; rfl
  obtain ⟨s', ls, h, _⟩ := C156_flag_violated dflt tb u s hb h4 _ _ hk rfl
  exact ⟨s, _, _, hb, h4, hk, rfl, s', ls, h⟩

/-! ## the columns of the table -/

/-- C156, columns: the words of a line are the parameter's name, its value, its uncertainty (if the table has them) and its flag, provided the name is short or the value is, and the
uncertainty has fewer than ten characters. -/
theorem C156_columns_partial (g : ℝ → Text) (hg : ∀ x, IsWord (g x)) (l : PrintLine) (hk : IsWord l.key.render) (hl : l.key.render.length < 20 ∨ (g l.value).length < 15)
    (he : ∀ e, l.err = some e → (g e).length < 10) :
    splitWords (l.text g) = [l.key.render, g l.value] ++ (match l.err with | none => [] | some e => [g e]) ++
      (match l.vary with | .yes => ["True".toList] | .no => ["False".toList] | .blank => []) := by
  have hv : ∀ v : Vary, splitWordsAux [] (padLeft 10 v.text ++ ['\n']) = match v with | .yes => ["True".toList] | .no => ["False".toList] | .blank => [] := by
    intro v; cases v <;> decide
  have hv' : ∀ (cur : Text) (v : Vary), cur ≠ [] → splitWordsAux cur (padLeft 10 v.text ++ ['\n']) = cur :: match v with | .yes => ["True".toList] | .no => ["False".toList] | .blank => [] := by
    intro cur v hc
    rw [← hv v]
    have : ∃ n : Nat, padLeft 10 v.text = ' ' :: (List.replicate n ' ' ++ v.text) := by
      cases v
      · exact ⟨5, rfl⟩
      · exact ⟨4, rfl⟩
      · exact ⟨9, rfl⟩
    obtain ⟨n, hn⟩ := this
    rw [hn, List.cons_append, splitWordsAux_close hc (by decide), splitWordsAux_skip (by decide)]
  have h1 : ∀ t, splitWordsAux [] (padRight 20 l.key.render ++ padLeft 15 (g l.value) ++ t) = l.key.render :: splitWordsAux (g l.value) t := by
    intro t
    unfold padRight padLeft
    have : ∃ n : Nat, l.key.render ++ List.replicate (20 - l.key.render.length) ' ' ++ (List.replicate (15 - (g l.value).length) ' ' ++ g l.value) ++ t =
        l.key.render ++ (' ' :: (List.replicate n ' ' ++ (g l.value ++ t))) := by
      refine ⟨(20 - l.key.render.length) + (15 - (g l.value).length) - 1, ?_⟩
      have : (20 - l.key.render.length) + (15 - (g l.value).length) = ((20 - l.key.render.length) + (15 - (g l.value).length) - 1) + 1 := by omega
      simp only [List.append_assoc]
      rw [← List.append_assoc (List.replicate _ _) (List.replicate _ _), List.replicate_append_replicate, this, List.replicate_succ]
      simp
    obtain ⟨n, hn⟩ := this
    rw [hn, splitWordsAux_word _ _ _ hk.2, List.nil_append, splitWordsAux_close hk.1 (by decide), splitWordsAux_blanks, splitWordsAux_word _ _ _ (hg _).2, List.nil_append]
  unfold PrintLine.text splitWords
  rcases hE : l.err with _ | e
  · simp only
    rw [List.append_assoc, List.append_assoc, h1, List.singleton_append, splitWordsAux_close (hg _).1 (by decide), hv]
    rfl
  · simp only
    have he' := he e hE
    rw [List.append_assoc, List.append_assoc, h1]
    have : ∃ n : Nat, padLeft 10 (g e) = ' ' :: (List.replicate n ' ' ++ g e) := by
      refine ⟨10 - (g e).length - 1, ?_⟩
      unfold padLeft
      rw [show 10 - (g e).length = (10 - (g e).length - 1) + 1 by omega, List.replicate_succ]
      simp
    obtain ⟨n, hn⟩ := this
    rw [hn, List.cons_append, splitWordsAux_close (hg _).1 (by decide), List.append_assoc, splitWordsAux_blanks, splitWordsAux_word _ _ _ (hg _).2, List.nil_append, hv' _ _ (hg _).1]
    rfl

/-- C156 is violated in the columns for an uncertainty whose text has ten characters or more (`1.23456e-05`): nothing separates it from the value. -/
theorem C156_glued_violated (g : ℝ → Text) (l : PrintLine) (e : ℝ) (he : l.err = some e) (hlen : 10 ≤ (g e).length) :
    ∃ a b, l.text g = a ++ (g l.value ++ g e) ++ b := by
  unfold PrintLine.text padLeft
  rw [he]
  have : 10 - (g e).length = 0 := by omega
  simp only [this, List.replicate_zero, List.nil_append]
  exact ⟨padRight 20 l.key.render ++ List.replicate (15 - (g l.value).length) ' ', List.replicate (10 - l.vary.text.length) ' ' ++ l.vary.text ++ ['\n'], by simp⟩

/-- A line whose columns can be told apart, and one where they cannot. -/
example : ∃ (g : ℝ → Text) (l l' : PrintLine), (∀ x, IsWord (g x)) ∧ IsWord l.key.render ∧ l.key.render.length < 20 ∧ (∀ e, l.err = some e → (g e).length < 10) ∧
    splitWords (l.text g) = ["k1".toList, "5.5".toList, "0.5".toList, "True".toList] ∧ l'.err = some 1 ∧ 10 ≤ (g 1).length := by
  classical
  let g : ℝ → Text := fun x => if x = 1 then "1.23456e-05".toList else if x = 2 then "0.5".toList else "5.5".toList
  have hg : ∀ x, IsWord (g x) := by
    intro x
    show IsWord (if x = 1 then _ else _)
    split_ifs <;> exact ⟨by decide, by decide⟩
  have g2 : g 2 = "0.5".toList := by show (if (2 : ℝ) = 1 then _ else _) = _; norm_num
  have g5 : g 5 = "5.5".toList := by show (if (5 : ℝ) = 1 then _ else _) = _; norm_num
  have g1 : g 1 = "1.23456e-05".toList := if_pos rfl
  let l : PrintLine := { key := .orb .k 1, value := 5, err := some 2, vary := .yes }
  have hk : l.key.render = "k1".toList := rfl
  have hkw : IsWord l.key.render := by rw [hk]; exact ⟨by decide, by decide⟩
  have hlen : l.key.render.length < 20 := by rw [hk]; decide
  have he : ∀ e, l.err = some e → (g e).length < 10 := by
    intro e h
    cases h
    rw [g2]; decide
  refine ⟨g, l, { l with err := some 1 }, hg, hkw, hlen, he, ?_, rfl, by rw [g1]; decide⟩
  rw [C156_columns_partial g hg l hkw (.inl hlen) he]
  show [l.key.render, g 5] ++ [g 2] ++ ["True".toList] = _
  rw [g2, g5, hk]; rfl

/-- A line without its line break. -/
theorem text_line (g : ℝ → Text) (hg : ∀ x, '\n' ∉ g x) (l : PrintLine) (hk : '\n' ∉ l.key.render) : ∃ t, l.text g = t ++ ['\n'] ∧ '\n' ∉ t := by
  have hp : ∀ n t, '\n' ∉ t → '\n' ∉ padLeft n t := by
    intro n t ht h
    unfold padLeft at h
    rcases List.mem_append.1 h with h | h
    · exact absurd (List.eq_of_mem_replicate h) (by decide)
    · exact ht h
  have hq : '\n' ∉ padRight 20 l.key.render := by
    intro h
    unfold padRight at h
    rcases List.mem_append.1 h with h | h
    · exact hk h
    · exact absurd (List.eq_of_mem_replicate h) (by decide)
  have hv : '\n' ∉ padLeft 10 l.vary.text := hp _ _ (by cases l.vary <;> decide)
  unfold PrintLine.text
  rcases l.err with _ | e
  · refine ⟨_, rfl, ?_⟩
    simp only [List.mem_append, not_or]
    exact ⟨⟨⟨hq, hp _ _ (hg _)⟩, by decide⟩, hv⟩
  · refine ⟨_, rfl, ?_⟩
    simp only [List.mem_append, not_or]
    exact ⟨⟨⟨hq, hp _ _ (hg _)⟩, hp _ _ (hg _)⟩, hv⟩

theorem splitChar_lines (ts : List Text) (h : ∀ t ∈ ts, '\n' ∉ t) (rest : Text) : splitChar '\n' ((ts.flatMap fun t => t ++ ['\n']) ++ rest) = ts ++ splitChar '\n' rest := by
  induction ts with
  | nil => rfl
  | cons t ts ih =>
    rw [List.flatMap_cons, List.append_assoc, List.append_assoc, List.singleton_append, splitChar_append _ _ _ (h t (List.mem_cons_self ..)), ih fun t ht => h t (List.mem_cons_of_mem _ ht)]
    rfl

/-- C156, rows: printing a posterior gives a heading, one row for each line of the table, an empty row, two rows of heading and one row for each prior, in their order. -/
theorem C156_rows (g : ℝ → Text) (hg : ∀ x, '\n' ∉ g x) (u : Bool) (ls : List PrintLine) (hk : ∀ l ∈ ls, '\n' ∉ l.key.render) (priors : List Text) (hp : ∀ t ∈ priors, '\n' ∉ t) :
    ∃ head rows, splitChar '\n' (printPost g u ls priors) = [head] ++ rows ++ [[], "Priors".toList, "------".toList] ++ priors ++ [[]] ∧
      splitWords head = ["parameter".toList, "value".toList] ++ (if u then ["+/-".toList] else []) ++ ["vary".toList] ∧ rows.map (fun t => t ++ ['\n']) = ls.map (PrintLine.text g) := by
  have hhead : ∃ head, printHeader u = head ++ ['\n'] ∧ '\n' ∉ head ∧ splitWords head = ["parameter".toList, "value".toList] ++ (if u then ["+/-".toList] else []) ++ ["vary".toList] := by
    cases u
    · exact ⟨padRight 20 "parameter".toList ++ padLeft 15 "value".toList ++ padLeft 10 "vary".toList, rfl, by decide, by decide⟩
    · exact ⟨padRight 20 "parameter".toList ++ padLeft 15 "value".toList ++ padLeft 10 "+/-".toList ++ padLeft 10 "vary".toList, rfl, by decide, by decide⟩
  obtain ⟨head, h1, h2, h3⟩ := hhead
  have hrows : ∃ rows : List Text, (∀ t ∈ rows, '\n' ∉ t) ∧ rows.map (fun t => t ++ ['\n']) = ls.map (PrintLine.text g) := by
    clear h1 h2 h3 hp
    induction ls with
    | nil => exact ⟨[], by simp, rfl⟩
    | cons l ls ih =>
      obtain ⟨rows, r1, r2⟩ := ih fun l hl => hk l (List.mem_cons_of_mem _ hl)
      obtain ⟨t, t1, t2⟩ := text_line g hg l (hk l (List.mem_cons_self ..))
      refine ⟨t :: rows, ?_, by rw [List.map_cons, List.map_cons, r2, t1]⟩
      intro x hx
      rcases List.mem_cons.1 hx with rfl | hx
      · exact t2
      · exact r1 x hx
  obtain ⟨rows, r1, r2⟩ := hrows
  refine ⟨head, rows, ?_, h3, r2⟩
  have hlast : ∀ ts : List Text, (∀ t ∈ ts, '\n' ∉ t) → splitChar '\n' (ts.flatMap fun t => t ++ ['\n']) = ts ++ [[]] := by
    intro ts hts
    have := splitChar_lines ts hts []
    rwa [List.append_nil] at this
  have e : printPost g u ls priors = ([head] ++ rows ++ [[], "Priors".toList, "------".toList] ++ priors).flatMap fun t => t ++ ['\n'] := by
    unfold printPost printText
    rw [List.flatMap_append, List.flatMap_append, List.flatMap_append, h1, List.flatMap_def (l := rows), r2, ← List.flatMap_def]
    have e1 : List.flatMap (fun x => x ++ ['\n']) [head] = head ++ ['\n'] := List.append_nil _
    have e2 : List.flatMap (fun x => x ++ ['\n']) [[], "Priors".toList, "------".toList] = "\nPriors\n".toList ++ "------\n".toList := rfl
    rw [e1, e2]
    simp only [List.append_assoc]
  rw [e, hlast]
  intro t ht
  simp only [List.mem_append, List.mem_cons, List.not_mem_nil, or_false] at ht
  rcases ht with ((rfl | ht) | rfl | rfl | rfl) | ht
  · exact h2
  · exact r1 t ht
  · decide
  · decide
  · decide
  · exact hp t ht

example : ∃ (g : ℝ → Text) (ls : List PrintLine) (priors : List Text), (∀ x, '\n' ∉ g x) ∧ (∀ l ∈ ls, '\n' ∉ l.key.render) ∧ (∀ t ∈ priors, '\n' ∉ t) ∧ ls.length = 2 ∧ priors.length = 1 :=
  ⟨fun _ => "1".toList, [{ key := .orb .k 1, value := 5, err := none, vary := .yes }, { key := .dvdt, value := 5, err := none, vary := .no }], ["Bounded prior".toList],
    fun _ => (by decide : '\n' ∉ "1".toList), by simp only [List.mem_cons, List.not_mem_nil, or_false]; rintro l (rfl | rfl) <;> decide, by decide, rfl, rfl⟩

end Radvel
