import Verif.Lemmas.PostLoop
import Verif.Props.MaxLike

/-! Lemmas on the fit inside `sampling_postprocessing`. -/

namespace Radvel
open Real

/-- The second state differs from the first only in values. -/
structure SameShape (s s' : VState ℝ) : Prop where
  indices : s'.indices = s.indices
  keys : s'.params.items.keys = s.params.items.keys
  basis : s'.params.basis = s.params.basis
  planets : s'.params.numPlanets = s.params.numPlanets
  flags : SameFlags s.rows s'.rows
  items : ∀ k q, s.params.items.get? k = some q → ∃ v, s'.params.items.get? k = some { q with value := v }

theorem SameShape.trans {a b c : VState ℝ} (h : SameShape a b) (h' : SameShape b c) : SameShape a c := by
  refine ⟨h'.indices.trans h.indices, h'.keys.trans h.keys, h'.basis.trans h.basis, h'.planets.trans h.planets, h.flags.trans h'.flags, ?_⟩
  intro k q hq
  obtain ⟨v, hv⟩ := h.items k q hq
  obtain ⟨w, hw⟩ := h'.items k _ hv
  exact ⟨w, hw⟩

theorem SameShape.ofRows {s : VState ℝ} {rows : List (Row ℝ)} (h : SameFlags s.rows rows) : SameShape s { s with rows := rows } :=
  ⟨rfl, rfl, rfl, rfl, h, fun _ q hq => ⟨q.value, hq⟩⟩

theorem SameShape.ofAgree {s s' : VState ℝ} (h : AgreeOff s s') : SameShape s s' :=
  ⟨h.indices, by rw [h.params], by rw [h.params], by rw [h.params], h.flags, fun _ q hq => ⟨q.value, by rw [h.params]; exact hq⟩⟩

theorem SameShape.ofSim {p p' : PostState} (h : PostSim p p') : SameShape p.st p'.st :=
  ⟨h.indices, by rw [h.params], by rw [h.params], by rw [h.params], h.flags, fun _ q hq => ⟨q.value, by rw [h.params]; exact hq⟩⟩

theorem SameShape.ofDict {s s' : VState ℝ} (hb : Built s) (h : s.vectorToDict = .ok s') : SameShape s s' ∧ s'.rows = s.rows := by
  obtain ⟨s2, b1, b2, b3, _, b5, b6, b7, _, b8, _⟩ := toDict_spec hb.inv.1 hb.inv.2
  rw [h] at b1; cases b1
  refine ⟨⟨b2, b5, b7, b6, by rw [b3]; exact SameFlags.refl _, ?_⟩, b3⟩
  intro k q hq
  obtain ⟨i, r, _, _, hr⟩ := b8 k q hq
  exact ⟨r.value, hr⟩

/-- Every dictionary entry has the value of its row. -/
def DictValues (s : VState ℝ) : Prop := ∀ k par, s.params.items.get? k = some par → ∃ r, RowOf s k r ∧ par.value = r.value

theorem dictValues_of {s s' : VState ℝ} (hb : Built s) (h : s.vectorToDict = .ok s') : DictValues s' := by
  obtain ⟨s2, b1, b2, b3, _, b5, b6, b7, _, b8, _⟩ := toDict_spec hb.inv.1 hb.inv.2
  rw [h] at b1; cases b1
  intro k par hp
  obtain ⟨par0, hp0⟩ := Dict.exists_get?_of_mem _ (b5 ▸ Dict.mem_keys_of_get? _ hp : k ∈ s.params.items.keys)
  obtain ⟨i, r, h1, h2, h3⟩ := b8 k par0 hp0
  rw [hp] at h3; cases h3
  exact ⟨r, ⟨i, by rw [b2]; exact h1, by rw [b3]; exact h2⟩, rfl⟩

theorem complete_of_built {s : VState ℝ} (h : Built s) : Complete s.params :=
  ⟨h.inv.1.nodup, fun x hx m hm => (h.inv.1.orb x m).2 ⟨hx, hm.1, hm.2⟩⟩

/-- A fit changes only values, and among the fixed parameters only those of analytic offsets. -/
theorem fit_frame (mod : Curve) (hmod : mod.Orbital) (Ls : List RVLike) (p : PostState) (hL : Likes p.st Ls)
    (hc : p.likeCache = none ∨ p.likeCache = some (freeRows p.st.rows)) (opt : Optimiser) (fuel : Nat) (q : PostState) (h : List (List ℝ × Fl))
    (hrun : maxlikeFitting (compositeLogprob (Ls.map fun L => L.logprob mod)) opt fuel p = (q, .ok h)) :
    SameShape p.st q.st ∧ Built q.st ∧ (∀ L ∈ Ls, L.On q.st) ∧ (∀ i : Nat, ¬ AnalyticGamma p.st i → i ∉ freeRows p.st.rows → q.st.rows[i]? = p.st.rows[i]?) := by
  obtain ⟨hs, hon⟩ := hL.built
  have hPr : RowFree (fun s => ∀ L ∈ Ls, L.On s) :=
    fun s s' h _ hi L hL => ⟨by rw [hi]; exact (h L hL).gamma, by rw [hi]; exact (h L hL).jit, by rw [hi]; exact (h L hL).dec⟩
  have hfr := composite_framed mod hmod Ls
  set like := compositeLogprob (Ls.map fun L => L.logprob mod) with hlike
  unfold maxlikeFitting at hrun
  rcases hx0 : p.ownState.getVaryParams with ⟨l, e | x0⟩
  · rw [hx0] at hrun; cases hrun
  rw [hx0] at hrun
  simp only [] at hrun
  set p0 : PostState := { p with postCache := l.cache } with hp0
  rcases hm : minimize like opt x0 fuel p0 [] with ⟨q', e | h'⟩
  · rw [hm] at hrun; cases hrun
  rw [hm] at hrun
  simp only [] at hrun
  rcases hd : q'.st.vectorToDict with e | st
  · rw [hd] at hrun; cases hrun
  rw [hd] at hrun
  simp only [Prod.mk.injEq, Except.ok.injEq] at hrun
  obtain ⟨hq, rfl⟩ := hrun
  obtain ⟨t, ht, hq', hvals⟩ := minimize_inv like opt x0 fuel p0 [] q' h' hm
  have hsim : PostSim p0 q' := by rw [hq']; exact (PostSim.refl p0 hc).runAll hPr hfr hs hon _
  have hb : Built q'.st := hsim.built hs
  obtain ⟨hsh, hrows⟩ := SameShape.ofDict hb hd
  rw [← hq]
  have hsh' : SameShape p.st st := (SameShape.ofSim hsim).trans hsh
  refine ⟨hsh', .toDict _ _ hb hd, ?_, ?_⟩
  · intro L hL
    exact ⟨by rw [hsh'.indices]; exact (hon L hL).gamma, by rw [hsh'.indices]; exact (hon L hL).jit, by rw [hsh'.indices]; exact (hon L hL).dec⟩
  · intro i hi hf
    show st.rows[i]? = _
    rw [hrows]
    exact hsim.rows i hi hf

/-- What `prepare` leaves behind. -/
theorem prepare_shape {n : Nat} (s : VState ℝ) (hb : Built s) (chains : Chain n) (hk : chains.keys.Nodup) (f : Frame n) (s' : VState ℝ) (h : prepare s chains = .ok (f, s')) :
    SameShape s s' ∧ Built s' ∧ DictValues s' ∧ (∀ Ls, Likes s Ls → Likes s' Ls) ∧
      ∀ k ∈ s.params.items.keys, ∀ r, RowOf s k r → RowOf s' k { r with value := match chains.get? k with | some col => colMid col | none => r.value } := by
  obtain ⟨_, rows, h1, h2, h3⟩ := prepare_spec s hb chains hk f s' h
  have hb1 : Built ({ s with rows := rows } : VState ℝ) := .write s rows hb h1.1
  obtain ⟨a1, a2⟩ := SameShape.ofDict hb1 h2
  have hsh : SameShape s s' := (SameShape.ofRows h1).trans a1
  refine ⟨hsh, .toDict _ _ hb1 h2, dictValues_of hb1 h2, fun Ls hL => .toDict _ _ _ (.write _ _ _ hL h1.1) h2, ?_⟩
  rintro k hk r ⟨i, hi, hr⟩
  exact ⟨i, by rw [hsh.indices]; exact hi, by rw [a2]; exact h3 k hk i r hi hr⟩

/-- What `postFit` returns. -/
theorem postFit_spec {n : Nat} (mod : Curve) (hmod : mod.Orbital) (Ls : List RVLike) (dflt : ℝ) (opt : Optimiser) (fitFuel : Nat) (p : PostState) (hL : Likes p.st Ls)
    (hc : p.likeCache = none ∨ p.likeCache = some (freeRows p.st.rows)) (chains : Chain n) (hk : chains.keys.Nodup) (f : Frame n) (q : PostState) (synth : Params ℝ)
    (h : postFit dflt (compositeLogprob (Ls.map fun L => L.logprob mod)) opt fitFuel p chains = .ok (f, q, synth)) :
    ∃ s, prepare p.st chains = .ok (f, s) ∧ SameShape p.st q.st ∧ Built q.st ∧ DictValues q.st ∧ toSynth dflt q.st.params.basis false q.st.params = .ok synth ∧
      ∀ i : Nat, ¬ AnalyticGamma p.st i → i ∉ freeRows p.st.rows → q.st.rows[i]? = s.rows[i]? := by
  obtain ⟨hb, _⟩ := hL.built
  unfold postFit at h
  rcases hp : prepare p.st chains with e | ⟨f', s⟩
  · rw [hp] at h; cases h
  rw [hp] at h
  simp only at h
  obtain ⟨b1, b2, _, b4, _⟩ := prepare_shape p.st hb chains hk f' s hp
  rcases hm : maxlikeFitting (compositeLogprob (Ls.map fun L => L.logprob mod)) opt fitFuel { p with st := s } with ⟨q1, e | t⟩
  · rw [hm] at h; cases h
  rw [hm] at h
  simp only at h
  obtain ⟨c1, c2, c3, c4⟩ := fit_frame mod hmod Ls { p with st := s } (b4 Ls hL) (by
    show p.likeCache = none ∨ p.likeCache = some (freeRows s.rows)
    rw [b1.flags.freeRows]; exact hc) opt fitFuel q1 t hm
  rcases hl : logprob (LikeEval.value (compositeLogprob (Ls.map fun L => L.logprob mod))) q1.st q1.priors with e | w
  · rw [hl] at h; cases h
  rw [hl] at h
  simp only at h
  have hag := stateAfter_agree (composite_framed mod hmod Ls) c2 c3 (priorSum q1.st q1.priors)
  set s2 := stateAfter (compositeLogprob (Ls.map fun L => L.logprob mod)) q1.st (priorSum q1.st q1.priors) with hs2
  have hb2 : Built s2 := by
    have : s2 = { q1.st with rows := s2.rows } := by
      cases hst : s2 with
      | mk params indices rows names =>
        have a := hag.params; have b := hag.indices; have c := hag.names
        rw [hst] at a b c
        simp only at a b c
        subst a b c
        rfl
    rw [this]
    exact .write _ _ c2 hag.flags.1
  rcases hd : s2.vectorToDict with e | s3
  · rw [hd] at h; cases h
  rw [hd] at h
  simp only at h
  rcases ht : toSynth dflt s3.params.basis false s3.params with e | sy
  · rw [ht] at h; cases h
  rw [ht] at h
  simp only [Except.ok.injEq, Prod.mk.injEq] at h
  obtain ⟨rfl, hq, rfl⟩ := h
  obtain ⟨d1, d2⟩ := SameShape.ofDict hb2 hd
  rw [← hq]
  refine ⟨s, rfl, b1.trans (c1.trans ((SameShape.ofAgree hag).trans d1)), .toDict _ _ hb2 hd, dictValues_of hb2 hd, ht, ?_⟩
  intro i hi hf
  show s3.rows[i]? = _
  have e1 : ¬ AnalyticGamma s i := fun hc => hi ((analytic_congr b1.indices b1.flags i).1 hc)
  have e2 : ¬ AnalyticGamma q1.st i := fun hc => e1 ((analytic_congr c1.indices c1.flags i).1 hc)
  rw [d2, hag.rows i e2, c4 i e1 (by show i ∉ freeRows s.rows; rw [b1.flags.freeRows]; exact hf)]

end Radvel
