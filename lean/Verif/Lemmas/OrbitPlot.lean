import Verif.Spec.OrbitPlot
import Verif.Lemmas.RVLikeFrame
import Verif.Props.RVModel
import Verif.Props.RVLike

namespace Radvel
open Real

theorem phaseAt_fract (t0 per t : ℝ) (hp : per ≠ 0) : phaseAt t0 per t = some (Int.fract ((t - t0) / per)) := by
  unfold phaseAt
  rw [if_neg hp, Int.fract]
  congr 1
  field_simp

/-- The model, also of a single planet, reads only the planets' and the trend's rows. -/
theorem modelCall_agree (drive : Drive) (tb : ℝ) {s s' : VState ℝ} (hs : Built s) (h : AgreeOff s s') (planet : Option Nat)
    (hp : ∀ i ∈ planet, i < s.params.numPlanets) (t : ℝ) : modelCall drive tb s' planet t = modelCall drive tb s planet t := by
  have hinv := hs.inv.1
  have hr : ∀ i : Nat, i < 5 * s.params.numPlanets + 2 → s'.rows[i]? = s.rows[i]? := fun i hi => h.rows i (not_analytic_orbital hs hi)
  unfold modelCall standardRvCalc
  rw [h.params]
  have ht : ∀ k, k = Key.dvdt ∨ k = Key.curv → trendCoef s' k = trendCoef s k := by
    intro k hk
    unfold trendCoef
    rw [h.indices]
    rcases hk with rfl | rfl
    · rw [hinv.dvdtIdx]; simp only; rw [hr _ (by omega)]
    · rw [hinv.curvIdx]; simp only; rw [hr _ (by omega)]
  rw [ht _ (.inl rfl), ht _ (.inr rfl)]
  rcases vToSynth_frame s.params.basis s.params.numPlanets s.rows s'.rows h.flags.1 (fun a ha => hr a (by omega)) with ⟨e, h1, h2⟩ | ⟨q1, q2, h1, h2, h3⟩
  · rw [h1, h2]
  · rw [h1, h2]
    have := addPlanets_frame drive t _ q1 q2 h3 (planetList s.params.numPlanets planet) (by
      cases planet with
      | none => intro i hi; simpa [planetList] using hi
      | some a => intro i hi; simp [planetList] at hi; subst hi; exact hp i rfl) (some 0)
    simp only [bind, Except.bind]
    cases planet <;> (simp only [planetList] at this; rw [this])

/-- The offset a likelihood subtracts in state `s` when the model is `m`. -/
noncomputable def offsetIn (s : VState ℝ) (m : ℝ → Option ℝ) (L : RVLike) : ℝ :=
  match s.rows[L.gammaIdx]?, s.rows[L.jitIdx]? with
  | some g, some j => gammaUsed L m g j
  | _, _ => 0

theorem residuals_agree {mod : Curve} (hmod : mod.Orbital) {s s0 : VState ℝ} (hs : Built s) {L : RVLike} (hL : L.On s) (h0 : AgreeOff s s0)
    (m : ℝ → Option ℝ) (hm : ∀ t, mod s t = .ok (m t)) (D : Obs → ℝ) (hd : L.decFun s = .ok D) :
    ∃ s', L.residuals mod s0 = .ok (s', L.obs.map (fun o => (m o.t).map (fun x => o.y - offsetIn s m L - x - D o))) ∧ AgreeOff s s' ∧
      readPar s' (.inst .gamma L.suffix) = .ok (offsetIn s m L) ∧ (∀ i : Nat, i ≠ L.gammaIdx → s'.rows[i]? = s0.rows[i]?) := by
  obtain ⟨g, j, hg, hj, hja, hga⟩ := On.rows hs hL
  have hj' : s0.rows[L.jitIdx]? = some j := by rw [h0.rows _ hja, hj]
  obtain ⟨g', hg', f1, f2, f3⟩ := h0.flags.2 _ g hg
  have hL' : L.On s0 := ⟨by rw [h0.indices]; exact hL.gamma, by rw [h0.indices]; exact hL.jit, by rw [h0.indices]; exact hL.dec⟩
  have hm' : ∀ o ∈ L.obs, mod s0 o.t = .ok (m o.t) := fun o _ => by rw [h0.mod hmod hs]; exact hm _
  have hana : g'.analytic = g.analytic := by simp [Row.analytic, f1, f3]
  have hoff : offsetIn s m L = gammaUsed L m g j := by unfold offsetIn; rw [hg, hj]
  have hused : gammaUsed L m g' j = offsetIn s m L := by
    rw [hoff]
    unfold gammaUsed
    rw [hana]
    by_cases ha : g.analytic = true
    · simp [ha]
    · have : s0.rows[L.gammaIdx]? = s.rows[L.gammaIdx]? := h0.rows _ (fun hc => ha (hga.1 hc))
      rw [hg, hg'] at this; cases this
      rfl
  refine ⟨gammaWritten L m s0 g' j, ?_, h0.trans (gammaWritten_agree hL' m hg'), ?_, ?_⟩
  · rw [residuals_eq mod L s0 m hm' g' j hg' hj', decFun_congr (s := s) L (fun p hp => readPar_frame (h0.trans (gammaWritten_agree hL' m hg')) _ (fun i hi => On.other_not_analytic hs hi)), hd]
    simp only [hused]
  · unfold readPar
    have hi : (gammaWritten L m s0 g' j).indices.get? (.inst .gamma L.suffix) = some L.gammaIdx := by
      have : (gammaWritten L m s0 g' j).indices = s0.indices := by unfold gammaWritten; split <;> rfl
      rw [this]; exact hL'.gamma
    rw [hi]
    simp only
    have hlt : L.gammaIdx < s0.rows.length := (List.getElem?_eq_some_iff.1 hg').1
    unfold gammaWritten
    by_cases ha : g'.analytic = true
    · rw [if_pos ha]
      simp only [List.getElem?_set_self hlt, hused]
    · rw [if_neg ha, hg']
      simp only
      rw [← hused]
      simp [gammaUsed, ha]
  · intro i hi
    unfold gammaWritten
    split
    · simp only [List.getElem?_set, Ne.symm hi, if_false]
    · rfl

theorem composite_agree {mod : Curve} (hmod : mod.Orbital) {s : VState ℝ} (hs : Built s) (m : ℝ → Option ℝ) (hm : ∀ t, mod s t = .ok (m t))
    (Ls : List RVLike) (hL : ∀ L ∈ Ls, L.On s) (D : RVLike → Obs → ℝ) (hd : ∀ L ∈ Ls, L.decFun s = .ok (D L)) (hn : (Ls.map RVLike.suffix).Nodup) (s0 : VState ℝ) (h0 : AgreeOff s s0) :
    ∃ s', compositeResiduals mod Ls s0 = .ok (s', Ls.flatMap (fun L => L.obs.map (fun o => (m o.t).map (fun x => o.y - offsetIn s m L - x - D L o)))) ∧ AgreeOff s s' ∧
      (∀ L ∈ Ls, readPar s' (.inst .gamma L.suffix) = .ok (offsetIn s m L)) ∧ (∀ i : Nat, (∀ L ∈ Ls, i ≠ L.gammaIdx) → s'.rows[i]? = s0.rows[i]?) := by
  induction Ls generalizing s0 with
  | nil => exact ⟨s0, rfl, h0, by simp, fun _ _ => rfl⟩
  | cons L Lt ih =>
    obtain ⟨s1, a1, a2, a3, a4⟩ := residuals_agree hmod hs (hL L (by simp)) h0 m hm (D L) (hd L (by simp))
    simp only [List.map_cons, List.nodup_cons] at hn
    obtain ⟨s2, b1, b2, b3, b4⟩ := ih (fun L h => hL L (List.mem_cons_of_mem _ h)) (fun L h => hd L (List.mem_cons_of_mem _ h)) hn.2 s1 a2
    refine ⟨s2, by simp only [compositeResiduals, a1, b1, List.flatMap_cons], b2, ?_, ?_⟩
    · intro M hM
      rcases List.mem_cons.1 hM with rfl | hM
      · have hi := (hL M (by simp)).gamma
        have hne : ∀ K ∈ Lt, M.gammaIdx ≠ K.gammaIdx := by
          intro K hK heq
          have hK' := (hL K (List.mem_cons_of_mem _ hK)).gamma
          rw [← heq] at hK'
          have hr1 : IdxInv.Rel s (.inst .gamma M.suffix) := .inl (hs.inv.1.ext _ _ rfl rfl hi).1
          have hr2 : IdxInv.Rel s (.inst .gamma K.suffix) := .inl (hs.inv.1.ext _ _ rfl rfl hK').1
          have := hs.inv.1.inj hr1 hr2 hi hK'
          have h2 : M.suffix = K.suffix := by injection this
          exact hn.1 (h2 ▸ List.mem_map_of_mem hK)
        have := b4 M.gammaIdx hne
        rw [← a3]
        unfold readPar
        rw [b2.indices, a2.indices, hi]
        simp only
        rw [this]
      · exact b3 M hM
    · intro i hi
      rw [b4 i (fun K hK => hi K (List.mem_cons_of_mem _ hK)), a4 i (hi L (by simp))]

theorem mapM_map_ok {α β : Type} (l : List α) (f : α → Except PyErr β) (g : α → β) (h : ∀ a ∈ l, f a = .ok (g a)) : l.mapM f = .ok (l.map g) := by
  induction l with
  | nil => rfl
  | cons a t ih =>
    rw [List.mapM_cons, h a (by simp), ih (fun a ha => h a (List.mem_cons_of_mem _ ha))]
    rfl

theorem fresh_read {s : VState ℝ} (h : Fresh s) (k : Key) (q : Parameter ℝ) (hq : s.params.items.get? k = some q) (i : Nat) (hi : s.indices.get? k = some i) :
    readPar s k = .ok q.value := by
  unfold readPar
  rw [hi]
  simp only
  rw [h.rows k q i hq hi]
  rfl

theorem errorbars_agree {s : VState ℝ} (hs : Built s) (hf : Fresh s) (Ls : List RVLike) (hL : ∀ L ∈ Ls, L.On s) :
    compositeErrorbars Ls s = .ok (Ls.flatMap (fun L => L.obs.map (fun o => √(o.err ^ 2 + jitterOf s.params L ^ 2)))) := by
  induction Ls with
  | nil => rfl
  | cons L Lt ih =>
    have hon := hL L (by simp)
    obtain ⟨q, hq⟩ := Dict.exists_get?_of_mem _ (hs.inv.1.ext _ _ rfl rfl hon.jit).1
    have hj : jitterOf s.params L = q.value := by unfold jitterOf; rw [hq]; rfl
    have := C28_errorbars L s hon q.value (fresh_read hf _ q hq _ hon.jit)
    simp only [compositeErrorbars, this, ih (fun L h => hL L (List.mem_cons_of_mem _ h)), List.flatMap_cons, hj]

theorem PlainDecorr.decFun {s : VState ℝ} {p : Params ℝ} {L : RVLike} {ds : List String} {c : String → ℝ} (h : PlainDecorr p L ds c) (hs : Built s) (hf : Fresh s) (hp : s.params = p) (hL : L.On s) :
    L.decFun s = .ok (decorrTerm L ds c) := by
  apply decFun_plain L s ds h.params h.nodup h.keys h.noU h.suffix h.clean c
  intro d hd
  obtain ⟨q, hq, hv⟩ := h.coef d hd
  obtain ⟨i, hi⟩ := hL.dec (decorrName L.suffix d) (by rw [h.params]; exact List.mem_map_of_mem hd)
  rw [← hv]
  exact fresh_read hf _ q (by rw [hp]; exact hq) i hi

theorem PlainDecorr.none {p : Params ℝ} {L : RVLike} (h : L.decParams = []) (c : String → ℝ) : PlainDecorr p L [] c := by
  constructor <;> simp [h]

theorem decorrTerm_nil (L : RVLike) (c : String → ℝ) (o : Obs) : decorrTerm L [] c o = 0 := rfl

/-- Velocity of planet `m` at time `t`. -/
noncomputable def planetVel (drive : Drive) (p : Params ℝ) (m : Nat) (t : ℝ) : Option ℝ := drive t (synthOfVals p.basis (valsOf p m))

noncomputable def trendAt (p : Params ℝ) (tb t : ℝ) : ℝ := trendOf p .dvdt * (t - tb) + trendOf p .curv * (t - tb) ^ 2

noncomputable def curveAt (drive : Drive) (p : Params ℝ) (tb : ℝ) (planet : Option Nat) (t : ℝ) : Option ℝ :=
  addNan (addNan ((planetList p.numPlanets planet).foldl (fun acc i => addNan acc (planetVel drive p (i + 1) t)) (some 0))
    (some (trendOf p .dvdt * (t - tb)))) (some (trendOf p .curv * (t - tb) ^ 2))

theorem curveAt_planet (drive : Drive) (p : Params ℝ) (tb : ℝ) (n : Nat) (hn : 1 ≤ n) (t : ℝ) :
    curveAt drive p tb (some (n - 1)) t = (planetVel drive p n t).map (· + trendAt p tb t) := by
  unfold curveAt planetList trendAt
  have : n - 1 + 1 = n := by omega
  simp only [List.foldl_cons, List.foldl_nil, this]
  cases planetVel drive p n t <;> simp [addNan, add_assoc]

/-- The figure, from the pieces that may fail. -/
noncomputable def figOf (D : RVLike → Obs → ℝ) (drive : Drive) (tb : ℝ) (s s2 : VState ℝ) (synth : Params ℝ) (Ls : List RVLike) (a : PlotArgs) (d c : ℝ) (g : ℝ × ℝ × ℝ) : OrbitFig :=
  let times := Ls.flatMap (fun L => L.obs.map Obs.t)
  let modt := linspace g.2.1 g.2.2 (if a.saveplot then 10000 else 2000)
  { st := s2, params := synth, rvtimes := times,
    rverr := Ls.flatMap (fun L => L.obs.map (fun o => √(o.err ^ 2 + jitterOf s.params L ^ 2))), telvec := Ls.flatMap (fun L => L.obs.map (fun _ => telOf L.suffix)),
    rawresid := Ls.flatMap (fun L => L.obs.map (fun o => (curveAt drive s.params tb none o.t).map (fun x => o.y - offsetIn s (curveAt drive s.params tb none) L - x - D L o))),
    dt := g.1, rvmodt := modt, orbitModel := modt.map (curveAt drive s.params tb none), rvmod := times.map (curveAt drive s.params tb none),
    epoch := (epochOf a.epoch times).1, plttimes := times.map (· - (epochOf a.epoch times).2), mplttimes := modt.map (· - (epochOf a.epoch times).2),
    slope := modt.map (fun t => d * (t - tb) + c * (t - tb) ^ 2), slopeLow := times.map (fun t => d * (t - tb) + c * (t - tb) ^ 2), args := a }

theorem Dict.get_of_get? {β : Type} (d : Dict Key β) (k : Key) (q : β) (h : d.get? k = some q) : d.get k = .ok q := by unfold Dict.get; rw [h]
theorem Dict.get_of_none {β : Type} (d : Dict Key β) (k : Key) (h : d.get? k = none) : d.get k = .error .keyError := by unfold Dict.get; rw [h]

/-- `MultipanelPlot.__init__` in closed form: `s1` is the state after `dict_to_vector`, `s2` the one after the residuals. -/
theorem orbitInit_eq (dflt : ℝ) (drive : Drive) (tb : ℝ) (s : VState ℝ) (Ls : List RVLike) (h : Likes s Ls) (dv : RVLike → List String) (dc : RVLike → String → ℝ) (hd : ∀ L ∈ Ls, PlainDecorr s.params L (dv L) (dc L))
    (hn : (Ls.map RVLike.suffix).Nodup) (a : PlotArgs) :
    ∃ s1 s2 synth, s.dictToVector = .ok s1 ∧ s1.params = s.params ∧ s1.indices = s.indices ∧ Fresh s1 ∧ Likes s1 Ls ∧ AgreeOff s1 s2 ∧
      toSynth dflt s.params.basis true s.params = .ok synth ∧
      (∀ L ∈ Ls, readPar s2 (.inst .gamma L.suffix) = .ok (offsetIn s1 (curveAt drive s.params tb none) L)) ∧
      orbitInit dflt drive tb s Ls a =
        match s.params.items.get? .dvdt, s.params.items.get? .curv with
        | some d, some c => do
          let longp ← longPeriod synth s.params.numPlanets (Ls.flatMap (fun L => L.obs.map Obs.t))
          let g ← gridOf a (Ls.flatMap (fun L => L.obs.map Obs.t)) longp
          return figOf (fun L => decorrTerm L (dv L) (dc L)) drive tb s1 s2 synth Ls a d.value c.value g
        | _, _ => .error .keyError := by
  obtain ⟨hb, hon⟩ := h.built
  obtain ⟨s1, e1, e2, e3, e4, e5, e6⟩ := sync_fresh hb.inv.1 hb.inv.2
  have h1 : Likes s1 Ls := .toVector s s1 Ls h e1
  obtain ⟨hb1, hon1⟩ := h1.built
  have hcall : ∀ (planet : Option Nat), (∀ i ∈ planet, i < s.params.numPlanets) → ∀ t, modelCall drive tb s1 planet t = .ok (curveAt drive s.params tb planet t) := by
    intro planet hp t
    rw [modelCall_fresh e2 drive tb t planet (by rw [e3]; exact hp), e3]
    rfl
  obtain ⟨s2, c1, c2, c3, _⟩ := composite_agree (modelCall_orbital drive tb) hb1 (curveAt drive s.params tb none) (hcall none (by simp)) Ls hon1 (fun L => decorrTerm L (dv L) (dc L)) (fun L hL => (hd L hL).decFun hb1 e2 e3 (hon1 L hL)) hn s1 (AgreeOff.refl s1)
  obtain ⟨synth, d1, d2, d3, d4, d5, d6, d7, d8⟩ := toSynth_spec dflt true s.params _ (hb1.inv.1 |> fun hi => (by
    have : Complete s.params := by
      rw [← e3]
      exact ⟨hi.nodup, fun x hx m hm => (hi.orb x m).2 ⟨hx, hm⟩⟩
    exact this.hasVals))
  refine ⟨s1, s2, synth, e1, e3, e4, e2, h1, c2, d1, c3, ?_⟩
  have hdv : synth.items.get? .dvdt = s.params.items.get? .dvdt := d8 _ (by simp)
  have hcv : synth.items.get? .curv = s.params.items.get? .curv := d8 _ (by simp)
  have hcall2 : ∀ t, modelCall drive tb s2 none t = .ok (curveAt drive s.params tb none t) := by
    intro t; rw [modelCall_agree drive tb hb1 c2 none (by simp)]; exact hcall none (by simp) t
  unfold orbitInit
  simp only [d1, e1, errorbars_agree hb1 e2 Ls hon1, c1, bind, Except.bind, pure, Except.pure]
  cases hq : s.params.items.get? .dvdt with
  | none =>
    rw [hq] at hdv
    simp only [slopeOf, Dict.get_of_none _ _ hdv]
    rfl
  | some d =>
    rw [hq] at hdv
    cases hq' : s.params.items.get? .curv with
    | none =>
      rw [hq'] at hcv
      simp only [slopeOf, Dict.get_of_none _ _ hcv, Dict.get_of_get? _ _ _ hdv, bind, Except.bind]
    | some c =>
      rw [hq'] at hcv
      have hs : ∀ ts, slopeOf synth tb ts = .ok (ts.map (fun t => d.value * (t - tb) + c.value * (t - tb) ^ 2)) := by
        intro ts
        simp only [slopeOf, Dict.get_of_get? _ _ _ hcv, Dict.get_of_get? _ _ _ hdv, bind, Except.bind]
        rfl
      simp only [hs, c2.params, e3]
      cases longPeriod synth s.params.numPlanets (Ls.flatMap (fun L => L.obs.map Obs.t)) with
      | error e => rfl
      | ok longp =>
        simp only
        cases gridOf a (Ls.flatMap (fun L => L.obs.map Obs.t)) longp with
        | error e => rfl
        | ok g =>
          obtain ⟨g1, g2, g3⟩ := g
          simp only [mapM_map_ok _ _ _ (fun t _ => hcall2 t)]
          unfold figOf
          simp only [e3]

end Radvel

namespace Radvel
open Real

theorem flatMap_allObs {β : Type} (Ls : List RVLike) (g : RVLike → Obs → β) : Ls.flatMap (fun L => L.obs.map (g L)) = (allObs Ls).map (fun x => g x.1 x.2) := by
  unfold allObs
  rw [List.map_flatMap]
  simp [List.map_map, Function.comp_def]

theorem mem_allObs {Ls : List RVLike} {x : RVLike × Obs} : x ∈ allObs Ls ↔ x.1 ∈ Ls ∧ x.2 ∈ x.1.obs := by
  unfold allObs
  simp only [List.mem_flatMap, List.mem_map]
  constructor
  · rintro ⟨L, hL, o, ho, rfl⟩; exact ⟨hL, ho⟩
  · rintro ⟨h1, h2⟩; exact ⟨_, h1, _, h2, rfl⟩

theorem curveAt_sum (drive : Drive) (p : Params ℝ) (tb t : ℝ) (v : Nat → ℝ) (hv : ∀ m, IsPlanet p m → planetVel drive p m t = some (v m)) :
    curveAt drive p tb none t = some (∑ m ∈ Finset.Icc 1 p.numPlanets, v m + trendTerm p tb t) := by
  unfold curveAt planetList
  have : (List.range p.numPlanets).foldl (fun acc i => addNan acc (planetVel drive p (i + 1) t)) (some 0)
      = (List.range p.numPlanets).foldl (fun acc i => addNan acc (some (v (i + 1)))) (some 0) := by
    apply List.foldl_ext
    intro acc i hi
    rw [hv (i + 1) ⟨by omega, by simp at hi; omega⟩]
  simp only [this, addNan_foldl_some]
  simp [addNan, trendTerm, add_assoc]

theorem zipWith_map_map {α β γ δ : Type} (l : List α) (f : α → β) (g : α → γ) (h : β → γ → δ) :
    List.zipWith h (l.map f) (l.map g) = l.map (fun a => h (f a) (g a)) := by
  induction l with
  | nil => rfl
  | cons a t ih => simp [ih]

theorem tToPhase_synth (p q : Params ℝ) (dflt : ℝ) (hp : Complete p) (hq : toSynth dflt p.basis true p = .ok q) (n : Nat) (hn : IsPlanet p n)
    (orb : Nat → Synth) (ho : Elements p orb) (hper : (orb n).per ≠ 0) (ts : List ℝ) (cat : Bool) :
    tToPhase q ts n cat = .ok (catPhase cat (ts.map (fun t => some (orbPhase (ephemeris p orb n) (orb n).per t)))) := by
  obtain ⟨q', d1, _, _, _, _, _, d7, _⟩ := toSynth_spec dflt true p _ hp.hasVals
  rw [hq] at d1; cases d1
  have horb := ho.eq hp n hn
  have hC := d7 .tc n hn.1 hn.2
  rw [if_neg (by decide)] at hC
  obtain ⟨q'', t1, _, _, _, _, t6⟩ := toSynth_values dflt true p hp
  rw [hq] at t1; cases t1
  have hsp := t6 n hn
  rw [← horb] at hsp
  have hget : ∀ x v, valueOf q x n = some v → ∃ r, q.items.get? (.orb x n) = some r ∧ r.value = v := by
    intro x v hv
    simpa [valueOf] using hv
  obtain ⟨rP, hP, hPv⟩ := hget _ _ hsp.per
  obtain ⟨rT, hT, hTv⟩ := hget _ _ hsp.tp
  unfold tToPhase
  rw [Dict.get_of_get? _ _ _ hP]
  cases htc : p.items.get? (.orb .tc n) with
  | some r =>
    rw [htc] at hC
    have h1 : q.items.has (.orb .tc n) = true := by unfold Dict.has; rw [hC]; rfl
    have he : ephemeris p orb n = r.value := by unfold ephemeris valueOf; rw [htc]; rfl
    simp only [h1, if_true, Dict.get_of_get? _ _ _ hC, bind, Except.bind, pure, Except.pure]
    congr 2
    apply List.map_congr_left
    intro t _
    rw [he, hPv]
    exact phaseAt_fract _ _ _ hper
  | none =>
    rw [htc] at hC
    have h1 : q.items.has (.orb .tc n) = false := by unfold Dict.has; rw [hC]; rfl
    have h4 : q.items.has (.orb .tp n) = true := by unfold Dict.has; rw [hT]; rfl
    have he : ephemeris p orb n = (orb n).tp := by unfold ephemeris valueOf; rw [htc]; rfl
    simp only [h1, h4, if_true, Bool.false_eq_true, if_false, Dict.get_of_get? _ _ _ hT, bind, Except.bind, pure, Except.pure]
    congr 2
    apply List.map_congr_left
    intro t _
    rw [he, hPv, hTv]
    exact phaseAt_fract _ _ _ hper

theorem foldPoints_eq {α : Type} (l : List α) (ph vel : α → Option ℝ) (err : α → ℝ) (tel : α → List Char) :
    foldPoints ((catPhase true (l.map ph)).map (fun x => x.map (· - 1))) (l.map vel) (l.map err) (l.map tel)
      = l.map (fun a => (⟨(ph a).map (· - 1), vel a, err a, tel a⟩ : FoldPoint)) ++ l.map (fun a => ⟨ph a, vel a, err a, tel a⟩) := by
  unfold foldPoints catPhase
  simp only [if_true, ← List.map_append, List.zip_eq_zipWith, zipWith_map_map, List.map_map]
  rw [List.map_append, List.map_append, List.zipWith_append (by simp), List.map_map, List.map_map, zipWith_map_map, zipWith_map_map]
  congr 1
  apply List.map_congr_left
  intro a _
  simp only [Function.comp]
  cases ph a <;> simp

end Radvel

namespace Radvel
open Real

/-- Everything known about a figure that was made. -/
theorem orbitInit_fig (dflt : ℝ) (drive : Drive) (tb : ℝ) (s : VState ℝ) (Ls : List RVLike) (h : Likes s Ls) (dv : RVLike → List String) (dc : RVLike → String → ℝ) (hd : ∀ L ∈ Ls, PlainDecorr s.params L (dv L) (dc L))
    (hn : (Ls.map RVLike.suffix).Nodup) (a : PlotArgs) (f : OrbitFig) (hf : orbitInit dflt drive tb s Ls a = .ok f) :
    ∃ s1 longp g, Complete s.params ∧ Built s1 ∧ s1.params = s.params ∧ s1.indices = s.indices ∧ Fresh s1 ∧ (∀ L ∈ Ls, L.On s1) ∧ AgreeOff s1 f.st ∧
      toSynth dflt s.params.basis true s.params = .ok f.params ∧
      longPeriod f.params s.params.numPlanets ((allObs Ls).map (fun x => x.2.t)) = .ok longp ∧ gridOf a ((allObs Ls).map (fun x => x.2.t)) longp = .ok g ∧
      (∀ L ∈ Ls, readPar f.st (.inst .gamma L.suffix) = .ok (offsetIn s1 (curveAt drive s.params tb none) L)) ∧
      f = figOf (fun L => decorrTerm L (dv L) (dc L)) drive tb s1 f.st f.params Ls a (trendOf s.params .dvdt) (trendOf s.params .curv) g := by
  obtain ⟨s1, s2, synth, e1, e2, e3, e4, e5, e6, e7, e8, e9⟩ := orbitInit_eq dflt drive tb s Ls h dv dc hd hn a
  rw [e9] at hf
  obtain ⟨hb1, hon1⟩ := e5.built
  have hcomp : Complete s.params := by
    rw [← e2]
    exact ⟨hb1.inv.1.nodup, fun x hx m hm => (hb1.inv.1.orb x m).2 ⟨hx, hm⟩⟩
  have htimes : Ls.flatMap (fun L => L.obs.map Obs.t) = (allObs Ls).map (fun x => x.2.t) := flatMap_allObs Ls (fun _ o => o.t)
  cases hdv : s.params.items.get? .dvdt with
  | none => rw [hdv] at hf; cases hf
  | some d =>
    cases hcv : s.params.items.get? .curv with
    | none => rw [hdv, hcv] at hf; cases hf
    | some c =>
      rw [hdv, hcv, htimes] at hf
      simp only [bind, Except.bind] at hf
      rcases hl : longPeriod synth s.params.numPlanets ((allObs Ls).map (fun x => x.2.t)) with e | longp
      · rw [hl] at hf; cases hf
      · rw [hl] at hf
        simp only at hf
        rcases hg : gridOf a ((allObs Ls).map (fun x => x.2.t)) longp with e | g
        · rw [hg] at hf; cases hf
        · rw [hg] at hf
          have hf' := (Except.ok.inj hf).symm
          have h1 : f.st = s2 := by rw [hf']; rfl
          have h2 : f.params = synth := by rw [hf']; rfl
          refine ⟨s1, longp, g, hcomp, hb1, e2, e3, e4, hon1, by rw [h1]; exact e6, by rw [h2]; exact e7, by rw [h2]; exact hl, hg, by rw [h1]; exact e8, ?_⟩
          rw [h1, h2, hf']
          simp [trendOf, hdv, hcv]

/-- `planet_num` calls on the figure's state. -/
theorem fig_planet (drive : Drive) (tb : ℝ) {s s1 s2 : VState ℝ} (hb1 : Built s1) (hp : s1.params = s.params) (hf : Fresh s1) (ha : AgreeOff s1 s2) (n : Nat)
    (hn : IsPlanet s.params n) (t : ℝ) : modelCall drive tb s2 (some (n - 1)) t = .ok ((planetVel drive s.params n t).map (· + trendTerm s.params tb t)) := by
  have hlt : ∀ i ∈ some (n - 1), i < s1.params.numPlanets := by
    intro i hi; rw [hp]; simp at hi; subst hi; have := hn.1; have := hn.2; omega
  rw [modelCall_agree drive tb hb1 ha _ hlt, modelCall_fresh hf drive tb t _ hlt, hp]
  exact congrArg Except.ok (curveAt_planet drive s.params tb n hn.1 t)

/-- The panel of planet `n` in closed form. -/
theorem phasefold_eq (dflt : ℝ) (drive : Drive) (tb : ℝ) (s : VState ℝ) (Ls : List RVLike) (h : Likes s Ls) (dv : RVLike → List String) (dc : RVLike → String → ℝ) (hd : ∀ L ∈ Ls, PlainDecorr s.params L (dv L) (dc L))
    (hn : (Ls.map RVLike.suffix).Nodup) (a : PlotArgs) (f : OrbitFig) (hf : orbitInit dflt drive tb s Ls a = .ok f)
    (orb : Nat → Synth) (ho : Elements s.params orb) (v : Nat → ℝ → ℝ) (hv : ∀ m, IsPlanet s.params m → ∀ x ∈ allObs Ls, drive x.2.t (orb m) = some (v m x.2.t))
    (γ : RVLike → ℝ) (hγ : ∀ L ∈ Ls, readPar f.st (.inst .gamma L.suffix) = .ok (γ L)) (n : Nat) (hpl : IsPlanet s.params n) (hper : (orb n).per ≠ 0) (hl : Bool) :
    let φ := orbPhase (ephemeris s.params orb n) (orb n).per
    let dat : RVLike × Obs → ℝ := fun x => x.2.y - γ x.1 - decorrTerm x.1 (dv x.1) (dc x.1) x.2 - ∑ m ∈ (Finset.Icc 1 s.params.numPlanets).erase n, v m x.2.t - trendTerm s.params tb x.2.t
    let err : RVLike × Obs → ℝ := fun x => √(x.2.err ^ 2 + jitterOf s.params x.1 ^ 2)
    let data := (allObs Ls).map (fun x => (⟨some (φ x.2.t - 1), some (dat x), err x, telOf x.1.suffix⟩ : FoldPoint)) ++
      (allObs Ls).map (fun x => ⟨some (φ x.2.t), some (dat x), err x, telOf x.1.suffix⟩)
    phasefold drive tb f hl n = (do
      let h ← (if hl then (foldHighlight f n ((allObs Ls).map (fun x => some (dat x)))).map some else Except.ok none)
      return { curve := f.rvmodt.map (fun t => (some (φ t - 1), drive t (orb n))) ++ f.rvmodt.map (fun t => (some (φ t), drive t (orb n))),
               data := data, bins := foldBins a.nobin (allObs Ls).length data, highlight := h, xlim := a.phaseLimits.getD (-0.5, 0.5) }) := by
  obtain ⟨s1, longp, g, hc, hb1, e2, e3, e4, e5, e6, e7, e8, e9, e10, e11⟩ := orbitInit_fig dflt drive tb s Ls h dv dc hd hn a f hf
  have hγ' : ∀ L ∈ Ls, offsetIn s1 (curveAt drive s.params tb none) L = γ L := by
    intro L hL
    have := e10 L hL
    rw [hγ L hL] at this
    exact (Except.ok.inj this).symm
  have hpv : ∀ m, IsPlanet s.params m → ∀ t, planetVel drive s.params m t = drive t (orb m) := by
    intro m hm t
    unfold planetVel
    rw [ho.eq hc m hm]
  have hcurve : ∀ x ∈ allObs Ls, curveAt drive s.params tb none x.2.t = some (∑ m ∈ Finset.Icc 1 s.params.numPlanets, v m x.2.t + trendTerm s.params tb x.2.t) :=
    fun x hx => curveAt_sum drive s.params tb x.2.t (fun m => v m x.2.t) (fun m hm => by rw [hpv m hm]; exact hv m hm x hx)
  have htimes : f.rvtimes = (allObs Ls).map (fun x => x.2.t) := by rw [e11]; exact flatMap_allObs Ls (fun _ o => o.t)
  have hres : f.rawresid = (allObs Ls).map (fun x => some (x.2.y - γ x.1 - decorrTerm x.1 (dv x.1) (dc x.1) x.2 - (∑ m ∈ Finset.Icc 1 s.params.numPlanets, v m x.2.t + trendTerm s.params tb x.2.t))) := by
    rw [e11]
    refine (flatMap_allObs Ls _).trans ?_
    apply List.map_congr_left
    intro x hx
    rw [e2, hcurve x hx, hγ' x.1 (mem_allObs.1 hx).1]
    exact congrArg some (by ring)
  have herr : f.rverr = (allObs Ls).map (fun x => √(x.2.err ^ 2 + jitterOf s.params x.1 ^ 2)) := by rw [e11, ← e2]; exact flatMap_allObs Ls _
  have htel : f.telvec = (allObs Ls).map (fun x => telOf x.1.suffix) := by rw [e11]; exact flatMap_allObs Ls (fun L _ => telOf L.suffix)
  have hslope : f.slope = f.rvmodt.map (trendTerm s.params tb) := by rw [e11]; rfl
  have hlow : f.slopeLow = f.rvtimes.map (trendTerm s.params tb) := by rw [e11]; rfl
  have hargs : f.args = a := by rw [e11]; rfl
  have hsum : ∀ t, ∑ m ∈ Finset.Icc 1 s.params.numPlanets, v m t = v n t + ∑ m ∈ (Finset.Icc 1 s.params.numPlanets).erase n, v m t := by
    intro t
    exact (Finset.add_sum_erase _ (fun m => v m t) (Finset.mem_Icc.2 hpl)).symm
  intro φ dat err data
  unfold phasefold
  have hm := fun t => fig_planet drive tb hb1 e2 e4 e6 n hpl t
  have hrv : List.zipWith (fun w (x : ℝ) => addNan w (some (-x)))
      (List.zipWith addNan f.rawresid (f.rvtimes.map (fun t => (planetVel drive s.params n t).map (· + trendTerm s.params tb t)))) f.slopeLow
      = (allObs Ls).map (fun x => some (dat x)) := by
    rw [hlow, htimes, hres, List.map_map, List.map_map, zipWith_map_map, zipWith_map_map]
    apply List.map_congr_left
    intro x hx
    simp only [Function.comp, hpv n hpl, hv n hpl x hx, Option.map_some, addNan, hsum, dat]
    congr 1
    ring
  have hcv : List.zipWith (fun w (x : ℝ) => addNan w (some (-x))) (f.rvmodt.map (fun t => (planetVel drive s.params n t).map (· + trendTerm s.params tb t))) f.slope
      = f.rvmodt.map (fun t => drive t (orb n)) := by
    rw [hslope, zipWith_map_map]
    apply List.map_congr_left
    intro t _
    rw [hpv n hpl]
    cases drive t (orb n) <;> simp [addNan]
  simp only [mapM_map_ok _ _ _ (fun t _ => hm t), bind, Except.bind, hrv, hcv,
    tToPhase_synth s.params f.params dflt hc e7 n hpl orb ho hper]
  cases hh : (if hl then (foldHighlight f n ((allObs Ls).map (fun x => some (dat x)))).map some else Except.ok none : Except PyErr _) with
  | error e => rfl
  | ok hh' =>
    simp only [pure, Except.pure]
    have hdata : foldPoints ((catPhase true (f.rvtimes.map (fun t => some (orbPhase (ephemeris s.params orb n) (orb n).per t)))).map (fun x => x.map (· - 1)))
        ((allObs Ls).map (fun x => some (dat x))) f.rverr f.telvec = data := by
      rw [htimes, herr, htel, List.map_map]
      exact foldPoints_eq (allObs Ls) _ _ _ _
    have hcurve2 : ((catPhase true (f.rvmodt.map (fun t => some (orbPhase (ephemeris s.params orb n) (orb n).per t)))).map (fun x => x.map (· - 1))).zip
        (f.rvmodt.map (fun t => drive t (orb n)) ++ f.rvmodt.map (fun t => drive t (orb n)))
        = f.rvmodt.map (fun t => (some (φ t - 1), drive t (orb n))) ++ f.rvmodt.map (fun t => (some (φ t), drive t (orb n))) := by
      unfold catPhase
      simp only [if_true]
      rw [List.map_append, List.zip_append (by simp), List.map_map, List.map_map, List.zip_eq_zipWith, List.zip_eq_zipWith, List.map_map, zipWith_map_map, zipWith_map_map]
      congr 1
      apply List.map_congr_left
      intro t _
      simp [φ]
    rw [hdata, hcurve2, hargs]
    have hlen : f.rvtimes.length = (allObs Ls).length := by rw [htimes]; simp
    rw [hlen]

theorem instrumentName_eq : instrumentName = telOf := by
  funext x
  unfold instrumentName telOf
  rcases x.toList with _ | ⟨c, t⟩
  · rfl
  · by_cases h : c = '_'
    · subst h; rfl
    · rw [if_neg (by simpa using h)]
      split
      · rename_i h1; exact absurd (List.cons.inj h1).1 h
      · rfl

end Radvel
