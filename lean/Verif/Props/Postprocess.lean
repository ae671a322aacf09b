import Verif.Lemmas.PostFit
import Verif.Props.Chains

/-!
# C128-C133: what is reported after sampling
-/

namespace Radvel
open Real

/-! ## C128 -/

theorem colMid_quantile {n : Nat} (hn : 0 < n) (col : Fin n → ℝ) : ColQuantile (asCol col) 0.5 (colMid col) := by
  have h : ∃ j x, asCol col j = some x := ⟨⟨0, hn⟩, _, rfl⟩
  have h1 := quantile_eq (asCol col) h (q := 0.5) (by norm_num) (by norm_num)
  apply quantile_colQuantile _ (by norm_num) (by norm_num)
  unfold colMid
  change quantile (asCol col) 0.5 = some ((quantile (asCol col) 0.5).getD 0)
  rw [h1]; rfl

/-- C128: before the final fit, every sampled parameter is set to the median of its samples and every other parameter keeps the value of its row; vector and dictionary agree, and nothing else changes. -/
theorem C128_medians {n : Nat} (hn : 0 < n) (s : VState ℝ) (hb : Built s) (chains : Chain n) (hk : chains.keys.Nodup) (f : Frame n) (s' : VState ℝ) (h : prepare s chains = .ok (f, s')) :
    Built s' ∧ s'.params.items.keys = s.params.items.keys ∧ s'.indices = s.indices ∧ s'.rows.length = s.rows.length ∧
    ∀ k q, s.params.items.get? k = some q → ∃ r v, RowOf s k r ∧ RowOf s' k { r with value := v } ∧ s'.params.items.get? k = some { q with value := v } ∧
      (∀ col, chains.get? k = some col → ColQuantile (asCol col) 0.5 v) ∧ (chains.get? k = none → v = r.value) := by
  obtain ⟨h1, h2, h3, _, h5⟩ := prepare_shape s hb chains hk f s' h
  refine ⟨h2, h1.keys, h1.indices, h1.flags.1, ?_⟩
  intro k q hq
  have hm : k ∈ s.params.items.keys := Dict.mem_keys_of_get? _ hq
  obtain ⟨r, hr⟩ := rowOf_of_owned (C01_reachable s hb) hm
  have h6 := h5 k hm r hr
  obtain ⟨w, hw⟩ := h1.items k q hq
  obtain ⟨r', hr', hv⟩ := h3 k _ hw
  obtain ⟨i, hi, hri⟩ := h6
  obtain ⟨i', hi', hri'⟩ := hr'
  rw [hi] at hi'; cases hi'
  rw [hri] at hri'; cases hri'
  simp only at hv
  refine ⟨r, _, hr, ⟨i, hi, hri⟩, by rw [← hv]; exact hw, ?_, ?_⟩
  · intro col hcol
    rw [hcol]
    exact colMid_quantile hn col
  · intro hcol
    rw [hcol]

/-- C128, the table whose columns are summarised: its row `j` holds the converted parameters of sample `j`, fixed parameters having their values; other parameters are not converted. Missing: the time of
periastron of samples with eccentricity above 1 (C122). -/
theorem C128_samples_partial {n : Nat} (s : VState ℝ) (hb : Built s) (hsy : Synced s) (chains : Chain n) (hk : chains.keys.Nodup) (f : Frame n) (s' : VState ℝ) (h : prepare s chains = .ok (f, s')) (j : Fin n) :
    (∀ p, IsRow chains s.params j p → ∀ dflt, ∃ q, toSynth dflt p.basis false p = .ok q ∧ ∀ m, IsPlanet s.params m → ∃ o, SynthPlanet q m o ∧ f.at (.orb .per m) j = some (some o.per) ∧
      f.at (.orb .e m) j = some (some o.e) ∧ f.at (.orb .w m) j = some (some o.w) ∧ f.at (.orb .k m) j = some (some o.k) ∧ (0 ≤ o.e → o.e ≤ 1 → f.at (.orb .tp m) j = some (some o.tp))) ∧
    ∀ k q, s.params.items.get? k = some q → (∀ m, IsPlanet s.params m → ∀ x ∈ BasisName.words .perTpEWK, k ≠ .orb x m) →
      (q.vary ≠ .yes → f.at k j = some (some q.value)) ∧ (q.vary = .yes → ∀ col, chains.get? k = some col → f.at k j = some (some (col j))) := by
  obtain ⟨⟨c, hc, _, h2⟩, _⟩ := prepare_spec s hb chains hk f s' h
  have hget : ∀ k q, s.params.items.get? k = some q → c.get? k = if q.vary = .yes then chains.get? k else some (fun _ => q.value) := by
    intro k q hq
    obtain ⟨i, r, a1, a2, a3, a4, _⟩ := hsy k q hq
    rw [h2 k r (Dict.mem_keys_of_get? _ hq) ⟨i, a1, a2⟩, a3]
    by_cases hv : r.vary = true
    · rw [if_pos hv, if_pos (a4.1 hv)]
    · rw [if_neg hv, if_neg (fun hc => hv (a4.2 hc))]
  constructor
  · intro p hp dflt
    have hpl : ∀ m, IsPlanet p m → IsPlanet s.params m := fun m hm => ⟨hm.1, hp.planets ▸ hm.2⟩
    have hsam : IsSample c j p := by
      intro x hx m hm
      rw [hp.basis] at hx
      obtain ⟨q, g1, g2, g3⟩ := hp.vals x hx m (hpl m hm)
      rw [hget _ q g1]
      by_cases hv : q.vary = .yes
      · obtain ⟨col, g4, g5⟩ := g3 hv
        exact ⟨col, by rw [if_pos hv]; exact g4, g5⟩
      · exact ⟨fun _ => q.value, by rw [if_neg hv], g2 hv⟩
    obtain ⟨f', q, e1, e2, e3, _⟩ := C122_rows_partial c j p (sample_of_row hb.inv.1.nodup hp).2 hsam dflt false
    rw [hp.basis, hp.planets, hc] at e1
    cases Except.ok.inj e1
    exact ⟨q, e2, fun m hm => e3 m ⟨hm.1, hp.planets.symm ▸ hm.2⟩⟩
  · intro k q hq hno
    obtain ⟨_, _, g3⟩ := Chain.toSynth_spec c _ _ _ hc
    have hf := g3 k (fun i hi x hx => hno (i + 1) ⟨by omega, by omega⟩ x hx)
    rw [hget k q hq] at hf
    constructor
    · intro hv
      rw [if_neg hv] at hf
      rw [Frame.at, hf]; rfl
    · intro hv col hcol
      rw [if_pos hv, hcol] at hf
      rw [Frame.at, hf]; rfl

/-- C128 is false for a sample with an eccentricity above 1 (nothing keeps the sampler from them without a prior) in the bases without a time of periastron: the summarised table has nan where the conversion of the
parameters of that sample gives the time of conjunction. -/
theorem C128_hyperbolic_violated {n : Nat} (s : VState ℝ) (hb : Built s) (hsy : Synced s) (chains : Chain n) (hk : chains.keys.Nodup) (f : Frame n) (s' : VState ℝ) (h : prepare s chains = .ok (f, s')) (j : Fin n)
    (p : Params ℝ) (hp : IsRow chains s.params j p) (hbt : PName.tp ∉ s.params.basis.words) (dflt : ℝ) (q : Params ℝ) (hq : toSynth dflt p.basis false p = .ok q) (m : Nat) (hm : IsPlanet s.params m) (e : ℝ)
    (he : valueOf q .e m = some e) (h1 : 1 < e) : f.at (.orb .tp m) j = some none ∧ valueOf q .tp m = valueOf p .tc m ∧ valueOf p .tc m ≠ none := by
  obtain ⟨⟨c, hc, _, h2⟩, _⟩ := prepare_spec s hb chains hk f s' h
  have hget : ∀ k q, s.params.items.get? k = some q → c.get? k = if q.vary = .yes then chains.get? k else some (fun _ => q.value) := by
    intro k q hq
    obtain ⟨i, r, a1, a2, a3, a4, _⟩ := hsy k q hq
    rw [h2 k r (Dict.mem_keys_of_get? _ hq) ⟨i, a1, a2⟩, a3]
    by_cases hv : r.vary = true
    · rw [if_pos hv, if_pos (a4.1 hv)]
    · rw [if_neg hv, if_neg (fun hc => hv (a4.2 hc))]
  have hsam : IsSample c j p := by
    intro x hx m hm
    rw [hp.basis] at hx
    obtain ⟨q, g1, g2, g3⟩ := hp.vals x hx m ⟨hm.1, hp.planets ▸ hm.2⟩
    rw [hget _ q g1]
    by_cases hv : q.vary = .yes
    · obtain ⟨col, g4, g5⟩ := g3 hv
      exact ⟨col, by rw [if_pos hv]; exact g4, g5⟩
    · exact ⟨fun _ => q.value, by rw [if_neg hv], g2 hv⟩
  obtain ⟨f', e1, e2, e3⟩ := C122_hyperbolic_violated c j p (sample_of_row hb.inv.1.nodup hp).2 hsam (by rw [hp.basis]; exact hbt) dflt false m ⟨hm.1, hp.planets.symm ▸ hm.2⟩ q hq e he h1
  rw [hp.basis, hp.planets, hc] at e1
  cases Except.ok.inj e1
  exact ⟨e2, e3⟩

/-! ## C129 -/

theorem synth_nodup {dflt : ℝ} {q : VState ℝ} (hb : Built q) {synth : Params ℝ} (h : toSynth dflt q.params.basis false q.params = .ok synth) : synth.items.keys.Nodup := by
  obtain ⟨y, h1, _, _, h2, _⟩ := toSynth_values dflt false q.params (complete_of_built hb)
  rw [h] at h1; cases h1
  exact h2.1

/-- What is reported for a parameter, in terms of its column. -/
theorem reported_of {n : Nat} {dflt : ℝ} {like : LikeEval} {opt : Optimiser} {fitFuel fuel : Nat} {p : PostState} {chains : Chain n} {f : Frame n} {q : PostState} {synth : Params ℝ}
    (hfit : postFit dflt like opt fitFuel p chains = .ok (f, q, synth)) (hn : synth.items.keys.Nodup) {res : PostState × Dict Key (Option Reported)}
    (h : postprocess dflt like opt fitFuel fuel p chains = .ok res) : res.1 = q ∧ ∀ k v, synth.items.get? k = some v → ∃ col r, f.get? k = some col ∧ report fuel v.value col = .ok r ∧ res.2.get? k = some r := by
  unfold postprocess at h
  rw [hfit] at h
  simp only at h
  rcases hr : synth.items.foldlM (reportAll fuel f) [] with e | out
  · rw [hr] at h; cases h
  rw [hr] at h
  have := Except.ok.inj h
  subst this
  exact ⟨rfl, fun k v hv => (reportAll_fold fuel f synth.items [] out hn hr k).1 v hv⟩

/-- C129: the uncertainty reported for a parameter is half the interval between the quantiles 15.9 % and 84.1 % of its samples, rounded to two significant digits (so within 5 %); the reported median and the
reported maximum-likelihood value are rounded, by at most half the uncertainty; nothing is rounded if the interval is a point. `F` bounds the loop of `sigfig`, which ends. -/
theorem C129_reported {n : Nat} (mod : Curve) (hmod : mod.Orbital) (Ls : List RVLike) (dflt : ℝ) (opt : Optimiser) (fitFuel : Nat) (p : PostState) (hL : Likes p.st Ls)
    (hc : p.likeCache = none ∨ p.likeCache = some (freeRows p.st.rows)) (chains : Chain n) (hk : chains.keys.Nodup) (f : Frame n) (q : PostState) (synth : Params ℝ)
    (hfit : postFit dflt (compositeLogprob (Ls.map fun L => L.logprob mod)) opt fitFuel p chains = .ok (f, q, synth))
    (k : Key) (v : Parameter ℝ) (hv : synth.items.get? k = some v) (col : Fin n → Option ℝ) (hcol : f.get? k = some col) (hnum : ∃ j x, col j = some x) :
    ∃ lo med hi r F, ColQuantile col 0.159 lo ∧ ColQuantile col 0.5 med ∧ ColQuantile col 0.841 hi ∧ lo ≤ med ∧ med ≤ hi ∧
      (∀ fuel, F ≤ fuel → ∀ res, postprocess dflt (compositeLogprob (Ls.map fun L => L.logprob mod)) opt fitFuel fuel p chains = .ok res → res.1 = q ∧ res.2.get? k = some (some r)) ∧
      r.err = roundSig ((hi - lo) / 2) 2 ∧ |r.err - (hi - lo) / 2| ≤ 0.05 * ((hi - lo) / 2) ∧ (lo < hi → 0 < r.err) ∧ |r.med - med| ≤ r.err / 2 ∧ |r.max - v.value| ≤ r.err / 2 := by
  obtain ⟨s, _, _, hb, _, hsy, _⟩ := postFit_spec mod hmod Ls dflt opt fitFuel p hL hc chains hk f q synth hfit
  have hn := synth_nodup hb hsy
  obtain ⟨lo, med, hi, r, F, q1, q2, q3, m1, m2, h1, h2, h3, h4⟩ := report_spec v.value col hnum
  refine ⟨lo, med, hi, r, F, quantile_colQuantile _ (by norm_num) (by norm_num) q1, quantile_colQuantile _ (by norm_num) (by norm_num) q2, quantile_colQuantile _ (by norm_num) (by norm_num) q3, m1, m2, ?_, h2, ?_, ?_, h3, h4⟩
  · intro fuel hF res hres
    obtain ⟨a1, a2⟩ := reported_of hfit hn hres
    obtain ⟨col', r', b1, b2, b3⟩ := a2 k v hv
    rw [hcol] at b1; cases b1
    rw [h1 fuel hF] at b2; cases b2
    exact ⟨a1, b3⟩
  · rw [h2]
    have := C54_relative ((hi - lo) / 2) 2 (le_refl _)
    rwa [abs_of_nonneg (by linarith : (0 : ℝ) ≤ (hi - lo) / 2)] at this
  · intro hlt
    rw [h2]
    exact (C54_sign _ 2 (by norm_num)).1 (by linarith)

/-! ## C130 -/

/-- The report on a constant column. -/
theorem report_const {n : Nat} (hn : 0 < n) (fuel : Nat) (v x : ℝ) : report fuel v (fun _ : Fin n => some x) = .ok (some ⟨0, x, v⟩) := by
  unfold report
  rw [quantile_const _ x hn (fun _ => rfl) (by norm_num) (by norm_num), quantile_const _ x hn (fun _ => rfl) (by norm_num) (by norm_num), quantile_const _ x hn (fun _ => rfl) (by norm_num) (by norm_num)]
  simp [C54_zero]

theorem synth_other {dflt : ℝ} {q : VState ℝ} (hb : Built q) {synth : Params ℝ} (h : toSynth dflt q.params.basis false q.params = .ok synth) (k : Key)
    (hno : ∀ m, IsPlanet q.params m → ∀ x ∈ BasisName.words .perTpEWK, k ≠ .orb x m) : synth.items.get? k = q.params.items.get? k := by
  obtain ⟨y, e1, _, _, _, _, _, e7, e8⟩ := toSynth_spec dflt false q.params _ (complete_of_built hb).hasVals
  rw [h] at e1; cases e1
  by_cases hk : ∃ x m, 1 ≤ m ∧ m ≤ q.params.numPlanets ∧ k = .orb x m
  · obtain ⟨x, m, h1, h2, rfl⟩ := hk
    rw [e7 x m h1 h2, if_neg]
    intro hx
    exact hno m ⟨h1, h2⟩ x hx rfl
  · push Not at hk
    exact e8 k (fun x m h1 h2 => hk x m h1 h2)

/-- What is reported for a fixed parameter that has no samples of its own and is not converted: no uncertainty, its value in the vector before as the median, its value in the final dictionary as the maximum. -/
theorem fixed_report {n : Nat} (hn : 0 < n) (mod : Curve) (hmod : mod.Orbital) (Ls : List RVLike) (dflt : ℝ) (opt : Optimiser) (fitFuel fuel : Nat) (p : PostState) (hL : Likes p.st Ls)
    (hc : p.likeCache = none ∨ p.likeCache = some (freeRows p.st.rows)) (chains : Chain n) (hk : chains.keys.Nodup) (f : Frame n) (q : PostState) (synth : Params ℝ)
    (hfit : postFit dflt (compositeLogprob (Ls.map fun L => L.logprob mod)) opt fitFuel p chains = .ok (f, q, synth)) (res : PostState × Dict Key (Option Reported))
    (hres : postprocess dflt (compositeLogprob (Ls.map fun L => L.logprob mod)) opt fitFuel fuel p chains = .ok res)
    (k : Key) (hkp : k ∈ p.st.params.items.keys) (r : Row ℝ) (hr : RowOf p.st k r) (hfix : r.vary = false) (hno : ∀ m, IsPlanet p.st.params m → ∀ x ∈ BasisName.words .perTpEWK, k ≠ .orb x m) :
    ∃ v, q.st.params.items.get? k = some v ∧ res.2.get? k = some (some ⟨0, r.value, v.value⟩) := by
  obtain ⟨hb0, _⟩ := hL.built
  obtain ⟨s, hp, hsh, hb, _, hsy, _⟩ := postFit_spec mod hmod Ls dflt opt fitFuel p hL hc chains hk f q synth hfit
  obtain ⟨⟨c, hcs, _, h2⟩, _⟩ := prepare_spec p.st hb0 chains hk f s hp
  obtain ⟨par, hpar⟩ := Dict.exists_get?_of_mem _ hkp
  obtain ⟨v, hv⟩ := hsh.items k par hpar
  have hpl : ∀ m, IsPlanet q.st.params m → IsPlanet p.st.params m := fun m hm => ⟨hm.1, hsh.planets ▸ hm.2⟩
  have hsk : synth.items.get? k = some { par with value := v } := by
    rw [synth_other hb hsy k (fun m hm => hno m (hpl m hm))]; exact hv
  obtain ⟨_, a2⟩ := reported_of hfit (synth_nodup hb hsy) hres
  obtain ⟨col, r', b1, b2, b3⟩ := a2 k _ hsk
  obtain ⟨_, _, g3⟩ := Chain.toSynth_spec c _ _ _ hcs
  have hcol := g3 k (fun i hi x hx => hno (i + 1) ⟨by omega, by omega⟩ x hx)
  rw [h2 k r hkp hr, hfix] at hcol
  rw [b1] at hcol
  have hcol : col = fun _ => some r.value := by simpa using hcol
  subst hcol
  rw [report_const hn] at b2
  cases b2
  exact ⟨_, hv, b3⟩

/-- A fixed parameter without samples is the same after the fit, unless it is an analytic offset. -/
theorem fixed_row {n : Nat} {mod : Curve} (hmod : mod.Orbital) {Ls : List RVLike} {dflt : ℝ} {opt : Optimiser} {fitFuel : Nat} {p : PostState} (hL : Likes p.st Ls)
    (hc : p.likeCache = none ∨ p.likeCache = some (freeRows p.st.rows)) {chains : Chain n} (hk : chains.keys.Nodup) {f : Frame n} {q : PostState} {synth : Params ℝ}
    (hfit : postFit dflt (compositeLogprob (Ls.map fun L => L.logprob mod)) opt fitFuel p chains = .ok (f, q, synth))
    {k : Key} (hkp : k ∈ p.st.params.items.keys) {r : Row ℝ} (hr : RowOf p.st k r) (hfix : r.vary = false) (hlin : (∀ x, k ≠ .inst .gamma x) ∨ r.linear = false) (hch : k ∉ chains.keys) :
    RowOf q.st k r ∧ ∀ v, q.st.params.items.get? k = some v → v.value = r.value := by
  obtain ⟨hb0, _⟩ := hL.built
  obtain ⟨s, hp, hsh, hb, hd, hsy, hrows⟩ := postFit_spec mod hmod Ls dflt opt fitFuel p hL hc chains hk f q synth hfit
  obtain ⟨c1, _, _, _, c5⟩ := prepare_shape p.st hb0 chains hk f s hp
  obtain ⟨i, hi, hri⟩ := hr
  obtain ⟨i', hi', hri'⟩ := c5 k hkp r ⟨i, hi, hri⟩
  rw [c1.indices, hi] at hi'
  cases hi'
  rw [(Dict.get?_eq_none_iff _ _).2 hch] at hri'
  have hna : ¬ AnalyticGamma p.st i := by
    rcases hlin with hlin | hlin
    · exact not_analytic hb0 (.inl hkp) hi hlin
    · rintro ⟨_, r', _, a2, a3, _⟩
      rw [hri] at a2; cases a2
      rw [hlin] at a3; cases a3
  have hnf : i ∉ freeRows p.st.rows := by
    intro hm
    obtain ⟨r', a1, a2⟩ := (mem_freeRows _ _).1 hm
    rw [hri] at a1; cases a1
    rw [hfix] at a2; cases a2
  have hq := hrows i hna hnf
  rw [hri'] at hq
  have hrow : RowOf q.st k r := ⟨i, by rw [hsh.indices]; exact hi, hq⟩
  refine ⟨hrow, ?_⟩
  intro v hv
  obtain ⟨r', ⟨i', e1, e2⟩, e3⟩ := hd k v hv
  obtain ⟨i2, e4, e5⟩ := hrow
  rw [e1] at e4; cases e4
  rw [e2] at e5; cases e5
  exact e3

/-- C130: a parameter that was fixed during sampling is reported with its own value, unrounded, as median and as maximum, and with uncertainty zero. Missing: offsets that are fixed because they are marginalised
analytically, see `C130_analytic_violated`. Converted parameters of planets are in `C130_planet_partial`. -/
theorem C130_fixed_partial {n : Nat} (hn : 0 < n) (mod : Curve) (hmod : mod.Orbital) (Ls : List RVLike) (dflt : ℝ) (opt : Optimiser) (fitFuel fuel : Nat) (p : PostState) (hL : Likes p.st Ls)
    (hc : p.likeCache = none ∨ p.likeCache = some (freeRows p.st.rows)) (chains : Chain n) (hk : chains.keys.Nodup) (res : PostState × Dict Key (Option Reported))
    (hres : postprocess dflt (compositeLogprob (Ls.map fun L => L.logprob mod)) opt fitFuel fuel p chains = .ok res)
    (k : Key) (hkp : k ∈ p.st.params.items.keys) (r : Row ℝ) (hr : RowOf p.st k r) (hfix : r.vary = false) (hlin : (∀ x, k ≠ .inst .gamma x) ∨ r.linear = false) (hch : k ∉ chains.keys)
    (hno : ∀ m, IsPlanet p.st.params m → ∀ x ∈ BasisName.words .perTpEWK, k ≠ .orb x m) :
    res.2.get? k = some (some ⟨0, r.value, r.value⟩) ∧ RowOf res.1.st k r := by
  rcases hfit : postFit dflt (compositeLogprob (Ls.map fun L => L.logprob mod)) opt fitFuel p chains with e | ⟨f, q, synth⟩
  · unfold postprocess at hres; rw [hfit] at hres; cases hres
  obtain ⟨v, h1, h2⟩ := fixed_report hn mod hmod Ls dflt opt fitFuel fuel p hL hc chains hk f q synth hfit res hres k hkp r hr hfix hno
  obtain ⟨s, _, _, hb, _, hsy, _⟩ := postFit_spec mod hmod Ls dflt opt fitFuel p hL hc chains hk f q synth hfit
  obtain ⟨h3, h4⟩ := fixed_row hmod hL hc hk hfit hkp hr hfix hlin hch
  have hqr : res.1 = q := (reported_of hfit (synth_nodup hb hsy) hres).1
  rw [hqr]
  exact ⟨by rw [h2, h4 v h1], h3⟩

/-- C130, planets: if all parameters of a planet are fixed, its converted parameters are reported unrounded and with uncertainty zero. Missing: the time of periastron for eccentricities outside 0 to 1. -/
theorem C130_planet_partial {n : Nat} (hn : 0 < n) (mod : Curve) (hmod : mod.Orbital) (Ls : List RVLike) (dflt : ℝ) (opt : Optimiser) (fitFuel fuel : Nat) (p : PostState) (hL : Likes p.st Ls) (hs : Synced p.st)
    (hc : p.likeCache = none ∨ p.likeCache = some (freeRows p.st.rows)) (chains : Chain n) (hk : chains.keys.Nodup) (res : PostState × Dict Key (Option Reported))
    (hres : postprocess dflt (compositeLogprob (Ls.map fun L => L.logprob mod)) opt fitFuel fuel p chains = .ok res)
    (m : Nat) (hm : IsPlanet p.st.params m) (hfix : ∀ x ∈ p.st.params.basis.words, ∃ par, p.st.params.items.get? (.orb x m) = some par ∧ par.vary ≠ .yes ∧ Key.orb x m ∉ chains.keys) :
    ∃ y o, toSynth dflt p.st.params.basis false p.st.params = .ok y ∧ SynthPlanet y m o ∧ res.2.get? (.orb .per m) = some (some ⟨0, o.per, o.per⟩) ∧ res.2.get? (.orb .e m) = some (some ⟨0, o.e, o.e⟩) ∧
      res.2.get? (.orb .w m) = some (some ⟨0, o.w, o.w⟩) ∧ res.2.get? (.orb .k m) = some (some ⟨0, o.k, o.k⟩) ∧ (0 ≤ o.e → o.e ≤ 1 → res.2.get? (.orb .tp m) = some (some ⟨0, o.tp, o.tp⟩)) := by
  obtain ⟨hb0, _⟩ := hL.built
  rcases hfit : postFit dflt (compositeLogprob (Ls.map fun L => L.logprob mod)) opt fitFuel p chains with e | ⟨f, q, synth⟩
  · unfold postprocess at hres; rw [hfit] at hres; cases hres
  obtain ⟨s, hp, hsh, hb, hd, hsy, _⟩ := postFit_spec mod hmod Ls dflt opt fitFuel p hL hc chains hk f q synth hfit
  obtain ⟨⟨c, hcs, _, h2⟩, _⟩ := prepare_spec p.st hb0 chains hk f s hp
  obtain ⟨_, a2⟩ := reported_of hfit (synth_nodup hb hsy) hres
  obtain ⟨y, e1, _, _, _, _, e2⟩ := toSynth_values dflt false p.st.params (complete_of_built hb0)
  obtain ⟨y', e1', _, _, _, _, e2'⟩ := toSynth_values dflt false q.st.params (complete_of_built hb)
  rw [hsy] at e1'; cases e1'
  have hv : ∀ x ∈ p.st.params.basis.words, ∀ j, c.cell m j x = valsOf p.st.params m x ∧ valsOf q.st.params m x = valsOf p.st.params m x := by
    intro x hx j
    obtain ⟨par, g1, g2, g3⟩ := hfix x hx
    have hkp := Dict.mem_keys_of_get? _ g1
    obtain ⟨i, r, b1, b2, b3, b4, _⟩ := hs _ par g1
    have hrv : r.vary = false := by
      rcases hh : r.vary
      · rfl
      · exact absurd (b4.1 hh) g2
    have hcell := h2 _ r hkp ⟨i, b1, b2⟩
    rw [hrv] at hcell
    have hp1 : valsOf p.st.params m x = r.value := by simp [valsOf, valueOf, g1, b3]
    obtain ⟨_, h4⟩ := fixed_row hmod hL hc hk hfit hkp ⟨i, b1, b2⟩ hrv (.inl (by simp)) g3
    obtain ⟨w, hw⟩ := hsh.items _ par g1
    have := h4 _ hw
    refine ⟨?_, ?_⟩
    · rw [hp1]
      unfold Chain.cell
      rw [hcell]
      rfl
    · rw [hp1]
      simp [valsOf, valueOf, hw]
      exact this
  have hpl : IsPlanet q.st.params m := ⟨hm.1, hsh.planets.symm ▸ hm.2⟩
  have hq := e2' m hpl
  rw [hsh.basis, synthOfVals_congr _ _ _ (fun x hx => (hv x hx ⟨0, hn⟩).2)] at hq
  obtain ⟨s1, s2, s3, s4, s5, _⟩ := synthCell_vals p.st.params.basis (valsOf p.st.params m)
  have hcell : ∀ j, synthCell p.st.params.basis (c.cell m j) = synthCell p.st.params.basis (valsOf p.st.params m) := fun j => synthCell_congr _ _ _ (fun x hx => (hv x hx j).1)
  set o := synthOfVals p.st.params.basis (valsOf p.st.params m) with ho
  obtain ⟨_, g2, _⟩ := Chain.toSynth_spec c _ _ _ hcs
  have key : ∀ x ∈ synthNames, ∀ v, (synthCell p.st.params.basis (valsOf p.st.params m)).get x = some v → valueOf synth x m = some v → res.2.get? (.orb x m) = some (some ⟨0, v, v⟩) := by
    intro x hx v h3 h4
    unfold valueOf at h4
    rcases hg : synth.items.get? (.orb x m) with _ | par
    · rw [hg] at h4; cases h4
    rw [hg] at h4
    have h4 : par.value = v := by simpa using h4
    obtain ⟨col, r, b1, b2, b3⟩ := a2 _ par hg
    have hcol := g2 (m - 1) (by have := hm.1; have := hm.2; omega) x hx
    rw [Nat.sub_add_cancel hm.1] at hcol
    simp only [hcell, h3] at hcol
    rw [b1] at hcol
    cases hcol
    rw [report_const hn, h4] at b2
    cases b2
    exact b3
  refine ⟨y, o, e1, e2 m hm, ?_, ?_, ?_, ?_, ?_⟩
  · exact key .per (by decide) _ (by rw [← s1]; rfl) hq.per
  · exact key .e (by decide) _ (by rw [← s2]; rfl) hq.e
  · exact key .w (by decide) _ (by rw [← s3]; rfl) hq.w
  · exact key .k (by decide) _ (by rw [← s4]; rfl) hq.k
  · intro h0 h1
    exact key .tp (by decide) _ (s5 (by linarith) h1) hq.tp

/-- C130 in full is false: an offset that is marginalised analytically counts as fixed. It is reported with uncertainty zero, whatever the samples and the data; its median is the value that happened to be in the
vector before, and its maximum another number, computed by the last evaluation of the likelihood. -/
theorem C130_analytic_violated {n : Nat} (hn : 0 < n) (mod : Curve) (hmod : mod.Orbital) (Ls : List RVLike) (dflt : ℝ) (opt : Optimiser) (fitFuel fuel : Nat) (p : PostState) (hL : Likes p.st Ls)
    (hc : p.likeCache = none ∨ p.likeCache = some (freeRows p.st.rows)) (chains : Chain n) (hk : chains.keys.Nodup) (res : PostState × Dict Key (Option Reported))
    (hres : postprocess dflt (compositeLogprob (Ls.map fun L => L.logprob mod)) opt fitFuel fuel p chains = .ok res)
    (suffix : String) (hkp : Key.inst .gamma suffix ∈ p.st.params.items.keys) (r : Row ℝ) (hr : RowOf p.st (.inst .gamma suffix) r) (_hlin : r.linear = true) (hfix : r.vary = false) :
    ∃ r', RowOf res.1.st (.inst .gamma suffix) r' ∧ res.2.get? (.inst .gamma suffix) = some (some ⟨0, r.value, r'.value⟩) := by
  rcases hfit : postFit dflt (compositeLogprob (Ls.map fun L => L.logprob mod)) opt fitFuel p chains with e | ⟨f, q, synth⟩
  · unfold postprocess at hres; rw [hfit] at hres; cases hres
  obtain ⟨v, h1, h2⟩ := fixed_report hn mod hmod Ls dflt opt fitFuel fuel p hL hc chains hk f q synth hfit res hres _ hkp r hr hfix (by simp)
  obtain ⟨s, _, _, hb, hd, hsy, _⟩ := postFit_spec mod hmod Ls dflt opt fitFuel p hL hc chains hk f q synth hfit
  have hqr : res.1 = q := (reported_of hfit (synth_nodup hb hsy) hres).1
  obtain ⟨r', h3, h4⟩ := hd _ v h1
  rw [hqr]
  exact ⟨r', h3, by rw [h2, h4]⟩

/-! ## C131 -/

theorem colMid_reorder {n : Nat} (σ : Equiv.Perm (Fin n)) (col : Fin n → ℝ) : colMid (fun j => col (σ j)) = colMid col := by
  unfold colMid
  rw [quantile_reorder σ (fun j => some (col j))]

theorem report_reorder {n : Nat} (σ : Equiv.Perm (Fin n)) (fuel : Nat) (v : ℝ) (col : Fin n → Option ℝ) : report fuel v (fun j => col (σ j)) = report fuel v col := by
  unfold report
  simp only [quantile_reorder σ]

theorem prepare_reorder {n : Nat} (σ : Equiv.Perm (Fin n)) (s : VState ℝ) (chains : Chain n) : prepare s (reorder σ chains) = (prepare s chains).map (fun r => (reorder σ r.1, r.2)) := by
  have h1 := foldlM_natural (reorder (α := ℝ) σ) (fillFixed s) (fillFixed s) (by
    intro c k
    unfold fillFixed
    rcases s.indices.get? k with _ | i
    · rfl
    simp only
    rcases s.rows[i]? with _ | r
    · rfl
    simp only
    by_cases hv : r.vary
    · simp only [hv, if_true]; rfl
    · simp only [hv, Bool.false_eq_true, if_false]
      exact congrArg Except.ok (reorder_set σ c k (fun _ => r.value)).symm) s.params.items.keys chains
  have h2 : (reorder σ chains).foldlM (setMedian s.params s.indices) s.rows = chains.foldlM (setMedian s.params s.indices) s.rows := by
    unfold reorder
    rw [List.foldlM_map]
    congr 1
    funext rows x
    unfold setMedian
    simp only [colMid_reorder]
  unfold prepare
  rw [h1, h2]
  rcases s.params.items.keys.foldlM (fillFixed s) chains with e | c
  · rfl
  simp only [Except.map]
  rw [toSynth_reorder]
  rcases c.toSynth s.params.basis s.params.numPlanets with e | f
  · rfl
  simp only [Except.map]
  rcases chains.foldlM (setMedian s.params s.indices) s.rows with e | rows
  · rfl
  simp only
  rcases VState.vectorToDict { s with rows := rows } with e | s'
  · rfl
  rfl

/-- C131: what is reported, and the state of the posterior, do not depend on the order of the samples. -/
theorem C131_order {n : Nat} (σ : Equiv.Perm (Fin n)) (dflt : ℝ) (like : LikeEval) (opt : Optimiser) (fitFuel fuel : Nat) (p : PostState) (chains : Chain n) :
    postprocess dflt like opt fitFuel fuel p (reorder σ chains) = postprocess dflt like opt fitFuel fuel p chains := by
  have h1 : postFit dflt like opt fitFuel p (reorder σ chains) = (postFit dflt like opt fitFuel p chains).map (fun r => (reorder σ r.1, r.2)) := by
    unfold postFit
    rw [prepare_reorder]
    rcases prepare p.st chains with e | ⟨f, s⟩
    · rfl
    simp only [Except.map]
    rcases maxlikeFitting like opt fitFuel { p with st := s } with ⟨q, e | t⟩
    · rfl
    simp only
    rcases logprob like.value q.st q.priors with e | w
    · rfl
    simp only
    rcases (stateAfter like q.st (priorSum q.st q.priors)).vectorToDict with e | s'
    · rfl
    simp only
    rcases toSynth dflt s'.params.basis false s'.params with e | y
    · rfl
    rfl
  unfold postprocess
  rw [h1]
  rcases postFit dflt like opt fitFuel p chains with e | ⟨f, q, synth⟩
  · rfl
  simp only [Except.map]
  have h2 : reportAll fuel (reorder σ f) = reportAll fuel f := by
    funext out x
    unfold reportAll
    rw [get?_reorder]
    rcases f.get? x.1 with _ | col
    · rfl
    simp only [Option.map, report_reorder]
  rw [h2]

/-! ## C132 -/

theorem arctan2_conj (y x : ℝ) (hy : y ≠ 0) : arctan2 (-y) x = -arctan2 y x := by
  unfold arctan2
  have h := Complex.arg_conj (⟨x, y⟩ : ℂ)
  rw [if_neg] at h
  · exact h
  · intro hpi
    exact hy (Complex.arg_eq_pi_iff.1 hpi).2

theorem arctan2_near (a δ : ℝ) (ha : a < 0) (h0 : 0 < δ) (h1 : δ ≤ -a / 10) : 2.98 ≤ arctan2 δ a ∧ arctan2 δ a ≤ π := by
  refine ⟨?_, Complex.arg_le_pi _⟩
  unfold arctan2
  rw [Complex.arg_of_re_neg_of_im_nonneg (by exact ha) (by exact h0.le)]
  simp only [Complex.neg_im]
  set z : ℂ := ⟨a, δ⟩ with hz
  have hn : -a ≤ ‖z‖ := by
    have := Complex.abs_re_le_norm z
    rw [hz] at this ⊢
    simp only at this
    rwa [abs_of_neg ha] at this
  have hx : δ / ‖z‖ ≤ 1 / 10 := by
    rw [div_le_div_iff₀ (by linarith) (by norm_num)]
    linarith
  have hx0 : 0 ≤ δ / ‖z‖ := div_nonneg h0.le (norm_nonneg _)
  rw [neg_div, Real.arcsin_neg]
  have h3 : Real.arcsin (δ / ‖z‖) ≤ π / 2 * (δ / ‖z‖) := by
    have h4 := Real.mul_le_sin (x := Real.arcsin (δ / ‖z‖)) (Real.arcsin_nonneg.2 hx0) (Real.arcsin_le_pi_div_two _)
    rw [Real.sin_arcsin (by linarith) (by linarith)] at h4
    have hpi := Real.pi_pos
    have h5 : 2 / π * Real.arcsin (δ / ‖z‖) * (π / 2) ≤ δ / ‖z‖ * (π / 2) := mul_le_mul_of_nonneg_right h4 (by positivity)
    have h6 : 2 / π * Real.arcsin (δ / ‖z‖) * (π / 2) = Real.arcsin (δ / ‖z‖) := by field_simp
    linarith
  have hpi := Real.pi_gt_d2
  nlinarith

theorem colQuantile_pair (w q : ℝ) (hw : 0 ≤ w) (h0 : 0 ≤ q) (h1 : q < 1) (col : Fin 2 → Option ℝ) (hc0 : col 0 = some w) (hc1 : col 1 = some (-w)) : ColQuantile col q (-w + q * (2 * w)) := by
  refine ⟨[-w, w], ?_, by simp; linarith, 0, q, -w, h0, h1, by norm_num, rfl, ?_⟩
  · simp only [List.ofFn_succ, List.ofFn_zero]
    have : col (Fin.succ 0) = some (-w) := hc1
    rw [hc0, this]
    exact List.Perm.swap _ _ _
  · show -w + q * (2 * w) = -w + q * (w - -w)
    ring

/-- C132, "the reported argument of periastron and its uncertainty describe the samples", is false: two samples whose eccentricity vectors `(a, δ)` and `(a, -δ)` with `a < 0` differ as little as one likes have
arguments of periastron near `π` and `-π`; the reported uncertainty is about 2 radians and the reported median points in the opposite direction. -/
theorem C132_wrap_violated (mod : Curve) (hmod : mod.Orbital) (Ls : List RVLike) (dflt : ℝ) (opt : Optimiser) (fitFuel : Nat) (p : PostState) (hL : Likes p.st Ls)
    (hc : p.likeCache = none ∨ p.likeCache = some (freeRows p.st.rows)) (chains : Chain 2) (hk : chains.keys.Nodup) (hbas : p.st.params.basis = .perTcSecoswSesinwK)
    (m : Nat) (hm : IsPlanet p.st.params m) (hfree : ∀ x ∈ [PName.secosw, .sesinw], ∃ r, RowOf p.st (.orb x m) r ∧ r.vary = true) (a δ : ℝ) (ha : a < 0) (h0 : 0 < δ) (h1 : δ ≤ -a / 10)
    (hca : chains.get? (.orb .secosw m) = some (fun _ => a)) (hsi : chains.get? (.orb .sesinw m) = some (fun j => if j = 0 then δ else -δ))
    (f : Frame 2) (q : PostState) (synth : Params ℝ) (hfit : postFit dflt (compositeLogprob (Ls.map fun L => L.logprob mod)) opt fitFuel p chains = .ok (f, q, synth)) :
    ∃ r F, (∀ fuel, F ≤ fuel → ∀ res, postprocess dflt (compositeLogprob (Ls.map fun L => L.logprob mod)) opt fitFuel fuel p chains = .ok res → res.2.get? (.orb .w m) = some (some r)) ∧
      1.9 ≤ r.err ∧ 0 < cos r.med := by
  obtain ⟨hb0, _⟩ := hL.built
  obtain ⟨s, hp, hsh, hb, hd, hsy, _⟩ := postFit_spec mod hmod Ls dflt opt fitFuel p hL hc chains hk f q synth hfit
  obtain ⟨⟨c, hcs, _, h2⟩, _⟩ := prepare_spec p.st hb0 chains hk f s hp
  obtain ⟨y, e1, _, _, _, _, e2⟩ := toSynth_values dflt false q.st.params (complete_of_built hb)
  rw [hsy] at e1; cases e1
  have hw := (e2 m ⟨hm.1, hsh.planets.symm ▸ hm.2⟩).w
  unfold valueOf at hw
  rcases hg : synth.items.get? (.orb .w m) with _ | par
  · rw [hg] at hw; cases hw
  have hcol : ∀ x ∈ [PName.secosw, .sesinw], c.get? (.orb x m) = chains.get? (.orb x m) := by
    intro x hx
    obtain ⟨r, hr, hv⟩ := hfree x hx
    have hkp : Key.orb x m ∈ p.st.params.items.keys := (hb0.inv.1.orb x m).2 ⟨by
      rw [hbas]
      simp only [List.mem_cons, List.not_mem_nil, or_false] at hx
      rcases hx with rfl | rfl <;> decide, hm.1, hm.2⟩
    rw [h2 _ r hkp hr, hv]; rfl
  obtain ⟨_, g2, _⟩ := Chain.toSynth_spec c _ _ _ hcs
  have hf := g2 (m - 1) (by have := hm.1; have := hm.2; omega) .w (by decide)
  rw [Nat.sub_add_cancel hm.1, hbas] at hf
  obtain ⟨n1, n2⟩ := arctan2_near a δ ha h0 h1
  set w0 := arctan2 δ a with hw0
  have hpi := Real.pi_lt_d2
  have hcell : ∀ j : Fin 2, (synthCell .perTcSecoswSesinwK (c.cell m j)).get .w = some (arctan2 (if j = 0 then δ else -δ) a) := by
    intro j
    have t1 : c.cell m j .secosw = a := by unfold Chain.cell; rw [hcol _ (by simp), hca]
    have t2 : c.cell m j .sesinw = if j = 0 then δ else -δ := by unfold Chain.cell; rw [hcol _ (by simp), hsi]
    simp only [synthCell, SynthCell.get, t1, t2]
  simp only [hcell] at hf
  set col : Fin 2 → Option ℝ := fun j => some (arctan2 (if j = 0 then δ else -δ) a) with hcoldef
  have c0 : col 0 = some w0 := by simp [hcoldef, hw0]
  have c1 : col 1 = some (-w0) := by simp [hcoldef, hw0, arctan2_conj δ a (ne_of_gt h0)]
  obtain ⟨lo, med, hi, r, F, q1, q2, q3, _, _, h3, _, h4, _, h5, _⟩ := C129_reported mod hmod Ls dflt opt fitFuel p hL hc chains hk f q synth hfit _ par hg col hf ⟨0, _, c0⟩
  have u1 := colQuantile_unique q1 (colQuantile_pair w0 0.159 (by linarith) (by norm_num) (by norm_num) col c0 c1)
  have u2 := colQuantile_unique q2 (colQuantile_pair w0 0.5 (by linarith) (by norm_num) (by norm_num) col c0 c1)
  have u3 := colQuantile_unique q3 (colQuantile_pair w0 0.841 (by linarith) (by norm_num) (by norm_num) col c0 c1)
  have v1 : (hi - lo) / 2 = 0.682 * w0 := by rw [u1, u3]; ring
  have v2 : med = 0 := by rw [u2]; ring
  rw [v1] at h4
  rw [v2, sub_zero] at h5
  obtain ⟨a1, a2⟩ := abs_le.1 h4
  obtain ⟨b1, b2⟩ := abs_le.1 h5
  refine ⟨r, F, fun fuel hF res hres => (h3 fuel hF res hres).2, by linarith, ?_⟩
  have hpi2 := Real.pi_gt_d2
  apply Real.cos_pos_of_mem_Ioo
  constructor <;> linarith

/-! ## C133 -/

/-- C133: if every free parameter was sampled and the time of periastron of every planet is a number in some sample, then every converted parameter is reported: its value and uncertainty if `sigfig` ends (it does, C129).
Missing: samples without a time of periastron, see `C133_hyperbolic_violated`. -/
theorem C133_complete_partial {n : Nat} (hn : 0 < n) (mod : Curve) (hmod : mod.Orbital) (Ls : List RVLike) (dflt : ℝ) (opt : Optimiser) (fitFuel fuel : Nat) (p : PostState) (hL : Likes p.st Ls)
    (hc : p.likeCache = none ∨ p.likeCache = some (freeRows p.st.rows)) (chains : Chain n) (hk : chains.keys.Nodup) (f : Frame n) (q : PostState) (synth : Params ℝ)
    (hfit : postFit dflt (compositeLogprob (Ls.map fun L => L.logprob mod)) opt fitFuel p chains = .ok (f, q, synth))
    (hfree : ∀ k ∈ p.st.params.items.keys, ∀ r, RowOf p.st k r → r.vary = true → k ∈ chains.keys) (htp : ∀ m, IsPlanet p.st.params m → ∃ j x, f.at (.orb .tp m) j = some (some x)) :
    ∃ out, postprocess dflt (compositeLogprob (Ls.map fun L => L.logprob mod)) opt fitFuel fuel p chains = .ok (q, out) ∧
      (∀ k ∈ p.st.params.items.keys, ∃ r, out.get? k = some r) ∧ ∀ m, IsPlanet p.st.params m → ∀ x ∈ BasisName.words .perTpEWK, ∃ r, out.get? (.orb x m) = some r := by
  obtain ⟨hb0, _⟩ := hL.built
  obtain ⟨s, hp, hsh, hb, hd, hsy, _⟩ := postFit_spec mod hmod Ls dflt opt fitFuel p hL hc chains hk f q synth hfit
  obtain ⟨⟨c, hcs, _, h2⟩, _⟩ := prepare_spec p.st hb0 chains hk f s hp
  obtain ⟨_, g2, g3⟩ := Chain.toSynth_spec c _ _ _ hcs
  have hnd := synth_nodup hb hsy
  have hsynthcol : ∀ m, IsPlanet p.st.params m → ∀ x ∈ BasisName.words .perTpEWK, ∃ col j y, f.get? (.orb x m) = some col ∧ col j = some y := by
    intro m hm x hx
    by_cases hxt : x = .tp
    · subst hxt
      obtain ⟨j, y, hy⟩ := htp m hm
      unfold Frame.at at hy
      rcases hcol : f.get? (.orb .tp m) with _ | col
      · rw [hcol] at hy; cases hy
      · rw [hcol] at hy
        exact ⟨col, j, y, rfl, by simpa using hy⟩
    · have hf := g2 (m - 1) (by have := hm.1; have := hm.2; omega) x hx
      rw [Nat.sub_add_cancel hm.1] at hf
      change x ∈ [PName.per, .tp, .e, .w, .k] at hx
      simp only [List.mem_cons, List.not_mem_nil, or_false] at hx
      rcases hx with rfl | rfl | rfl | rfl | rfl
      · exact ⟨_, ⟨0, hn⟩, _, hf, rfl⟩
      · exact absurd rfl hxt
      · exact ⟨_, ⟨0, hn⟩, _, hf, rfl⟩
      · exact ⟨_, ⟨0, hn⟩, _, hf, rfl⟩
      · exact ⟨_, ⟨0, hn⟩, _, hf, rfl⟩
  have hall : ∀ x ∈ synth.items, ∃ col j y, f.get? x.1 = some col ∧ col j = some y := by
    rintro ⟨k, par⟩ hx
    simp only
    by_cases hsyn : ∃ m, IsPlanet p.st.params m ∧ ∃ x ∈ BasisName.words .perTpEWK, k = .orb x m
    · obtain ⟨m, hm, x, hx', rfl⟩ := hsyn
      exact hsynthcol m hm x hx'
    · push Not at hsyn
      have hget := Dict.get?_of_mem_nodup _ hnd hx
      rw [synth_other hb hsy k (fun m hm => hsyn m ⟨hm.1, hsh.planets ▸ hm.2⟩)] at hget
      have hkp : k ∈ p.st.params.items.keys := hsh.keys ▸ Dict.mem_keys_of_get? _ hget
      obtain ⟨r, hr⟩ := rowOf_of_owned (C01_reachable _ hb0) hkp
      have hf := g3 k (fun i hi x hx => hsyn (i + 1) ⟨by omega, by omega⟩ x hx)
      rw [h2 k r hkp hr] at hf
      by_cases hv : r.vary = true
      · rw [if_pos hv] at hf
        obtain ⟨col, hcol⟩ := Dict.exists_get?_of_mem _ (hfree k hkp r hr hv)
        rw [hcol] at hf
        exact ⟨_, ⟨0, hn⟩, _, hf, rfl⟩
      · rw [if_neg hv] at hf
        exact ⟨_, ⟨0, hn⟩, _, hf, rfl⟩
  obtain ⟨out, hout⟩ := reportAll_ok fuel f synth.items [] hall (fun v col h => report_ok fuel v col h)
  have hpost : postprocess dflt (compositeLogprob (Ls.map fun L => L.logprob mod)) opt fitFuel fuel p chains = .ok (q, out) := by
    unfold postprocess
    rw [hfit]
    simp only
    rw [hout]
  obtain ⟨_, a2⟩ := reported_of hfit hnd hpost
  have hrep : ∀ k v, synth.items.get? k = some v → ∃ r, out.get? k = some r := by
    intro k v hv
    obtain ⟨_, r, _, _, h⟩ := a2 k v hv
    exact ⟨r, h⟩
  have hsynthkey : ∀ m, IsPlanet p.st.params m → ∀ x ∈ BasisName.words .perTpEWK, ∃ r, out.get? (.orb x m) = some r := by
    intro m hm x hx
    obtain ⟨y, e1, e3, e5, e4, _⟩ := toSynth_values dflt false q.st.params (complete_of_built hb)
    rw [hsy] at e1; cases e1
    have hmem := e4.2 x (by rw [e3]; exact hx) m ⟨hm.1, by rw [e5, hsh.planets]; exact hm.2⟩
    obtain ⟨v, hv⟩ := Dict.exists_get?_of_mem _ hmem
    exact hrep _ v hv
  refine ⟨out, hpost, ?_, hsynthkey⟩
  intro k hkp
  by_cases hsyn : ∃ m, IsPlanet p.st.params m ∧ ∃ x ∈ BasisName.words .perTpEWK, k = .orb x m
  · obtain ⟨m, hm, x, hx, rfl⟩ := hsyn
    exact hsynthkey m hm x hx
  · push Not at hsyn
    obtain ⟨v, hv⟩ := Dict.exists_get?_of_mem _ (hsh.keys.symm ▸ hkp : k ∈ q.st.params.items.keys)
    exact hrep k v (by rw [synth_other hb hsy k (fun m hm => hsyn m ⟨hm.1, hsh.planets ▸ hm.2⟩)]; exact hv)

/-- C133 in full is false: if in a basis with a time of conjunction every sample of a planet has an eccentricity above 1, the post-processing raises, so that nothing is reported for any parameter. -/
theorem C133_hyperbolic_violated {n : Nat} (mod : Curve) (hmod : mod.Orbital) (Ls : List RVLike) (dflt : ℝ) (opt : Optimiser) (fitFuel fuel : Nat) (p : PostState) (hL : Likes p.st Ls) (hs : Synced p.st)
    (hc : p.likeCache = none ∨ p.likeCache = some (freeRows p.st.rows)) (chains : Chain n) (hk : chains.keys.Nodup) (hb : PName.tp ∉ p.st.params.basis.words) (m : Nat) (hm : IsPlanet p.st.params m)
    (hyp : ∀ j, ∃ u y e, IsRow chains p.st.params j u ∧ toSynth dflt u.basis true u = .ok y ∧ valueOf y .e m = some e ∧ 1 < e) (res : PostState × Dict Key (Option Reported)) :
    postprocess dflt (compositeLogprob (Ls.map fun L => L.logprob mod)) opt fitFuel fuel p chains ≠ .ok res := by
  intro hres
  obtain ⟨hb0, _⟩ := hL.built
  rcases hfit : postFit dflt (compositeLogprob (Ls.map fun L => L.logprob mod)) opt fitFuel p chains with e | ⟨f, q, synth⟩
  · unfold postprocess at hres; rw [hfit] at hres; cases hres
  obtain ⟨s, hp, hsh, hbq, hd, hsy, _⟩ := postFit_spec mod hmod Ls dflt opt fitFuel p hL hc chains hk f q synth hfit
  obtain ⟨⟨c, hcs, _, h2⟩, _⟩ := prepare_spec p.st hb0 chains hk f s hp
  have hget : ∀ k q, p.st.params.items.get? k = some q → c.get? k = if q.vary = .yes then chains.get? k else some (fun _ => q.value) := by
    intro k q hq
    obtain ⟨i, r, a1, a2, a3, a4, _⟩ := hs k q hq
    rw [h2 k r (Dict.mem_keys_of_get? _ hq) ⟨i, a1, a2⟩, a3]
    by_cases hv : r.vary = true
    · rw [if_pos hv, if_pos (a4.1 hv)]
    · rw [if_neg hv, if_neg (fun hc => hv (a4.2 hc))]
  obtain ⟨y, e1, e3, e5, e4, _⟩ := toSynth_values dflt false q.st.params (complete_of_built hbq)
  rw [hsy] at e1; cases e1
  have hmem := e4.2 .tp (by rw [e3]; decide) m ⟨hm.1, by rw [e5, hsh.planets]; exact hm.2⟩
  obtain ⟨v, hv⟩ := Dict.exists_get?_of_mem _ hmem
  obtain ⟨_, a2⟩ := reported_of hfit (synth_nodup hbq hsy) hres
  obtain ⟨col, r, b1, b2, _⟩ := a2 _ v hv
  have hnan : ∀ j, col j = none := by
    intro j
    obtain ⟨u, y, e, hu, hy, he, h1⟩ := hyp j
    have hsam : IsSample c j u := by
      intro x hx m' hm'
      rw [hu.basis] at hx
      obtain ⟨q, g1, g2, g3⟩ := hu.vals x hx m' ⟨hm'.1, hu.planets ▸ hm'.2⟩
      rw [hget _ q g1]
      by_cases hv : q.vary = .yes
      · obtain ⟨col, g4, g5⟩ := g3 hv
        exact ⟨col, by rw [if_pos hv]; exact g4, g5⟩
      · exact ⟨fun _ => q.value, by rw [if_neg hv], g2 hv⟩
    obtain ⟨f', t1, t2, _⟩ := C122_hyperbolic_violated c j u (sample_of_row hb0.inv.1.nodup hu).2 hsam (by rw [hu.basis]; exact hb) dflt true m ⟨hm.1, hu.planets.symm ▸ hm.2⟩ y hy e he h1
    rw [hu.basis, hu.planets, hcs] at t1
    cases Except.ok.inj t1
    unfold Frame.at at t2
    rw [b1] at t2
    simpa using t2
  rw [report_nan fuel v.value col hnan] at b2
  cases b2

/-! ## Non-vacuity -/

/-- Without evaluations by the optimiser the steps up to the report succeed if `logprob` does. -/
theorem postFit_zero {n : Nat} (mod : Curve) (hmod : mod.Orbital) (Ls : List RVLike) (dflt : ℝ) (opt : Optimiser) (p : PostState) (hL : Likes p.st Ls) (hpc : p.postCache = none)
    (chains : Chain n) (hk : chains.keys.Nodup) (f : Frame n) (s s1 : VState ℝ) (hp : prepare p.st chains = .ok (f, s)) (hd : s.vectorToDict = .ok s1) (w : Fl)
    (hl : logprob (LikeEval.value (compositeLogprob (Ls.map fun L => L.logprob mod))) s1 p.priors = .ok w) :
    ∃ q synth, postFit dflt (compositeLogprob (Ls.map fun L => L.logprob mod)) opt 0 p chains = .ok (f, q, synth) ∧
      (stateAfter (compositeLogprob (Ls.map fun L => L.logprob mod)) s1 (priorSum s1 p.priors)).vectorToDict = .ok q.st := by
  obtain ⟨hb0, hon⟩ := hL.built
  obtain ⟨c1, hb, _, hLs, _⟩ := prepare_shape p.st hb0 chains hk f s hp
  obtain ⟨vs, hvs, _⟩ := readVals_ok s.rows (freeRows s.rows) (fun i hi => freeRows_lt _ i hi)
  have hfit : maxlikeFitting (compositeLogprob (Ls.map fun L => L.logprob mod)) opt 0 { p with st := s } = ({ p with st := s1, postCache := some (freeRows s.rows) }, .ok []) := by
    have : ({ p with st := s } : PostState).ownState.getVaryParams = ({ st := s, cache := some (freeRows s.rows) }, .ok vs) := by
      unfold PostState.ownState LikeState.getVaryParams
      simp only [hpc, LikeState.listVaryParams]
      simp [hvs]
    unfold maxlikeFitting
    rw [this]
    simp only [minimize]
    rw [hd]
  obtain ⟨f1, f2⟩ := SameShape.ofDict hb hd
  have hb1 : Built s1 := .toDict _ _ hb hd
  have hag := stateAfter_agree (composite_framed mod hmod Ls) hb1 ((Likes.toDict _ _ _ (hLs Ls hL) hd).built.2) (priorSum s1 p.priors)
  set s2 := stateAfter (compositeLogprob (Ls.map fun L => L.logprob mod)) s1 (priorSum s1 p.priors) with hs2
  have hb2 : Built s2 := by
    have : s2 = { s1 with rows := s2.rows } := by
      cases hst : s2 with
      | mk params indices rows names =>
        have a := hag.params; have b := hag.indices; have c := hag.names
        rw [hst] at a b c
        simp only at a b c
        subst a b c
        rfl
    rw [this]
    exact .write _ _ hb1 hag.flags.1
  obtain ⟨s3, g1, _⟩ := C02_read_own_row s2 hb2
  obtain ⟨y, h1, _⟩ := toSynth_values dflt false s3.params (complete_of_built (.toDict _ _ hb2 g1))
  refine ⟨{ p with st := s3, postCache := some (freeRows s.rows) }, y, ?_, g1⟩
  unfold postFit
  rw [hp]
  simp only
  rw [hfit]
  simp only
  rw [hl]
  simp only
  rw [← hs2, g1]
  simp only
  rw [h1]

/-- A planet with a period of 10 and an amplitude of 5. -/
noncomputable def tenDays (vary : Vary) (x y : ℝ) : Params ℝ :=
  (((((Params.init 0 1 .perTcSecoswSesinwK none).setItem (.orb .per 1) ⟨10, .no, none, false⟩).setItem (.orb .tc 1) ⟨3, .no, none, false⟩).setItem (.orb .secosw 1) ⟨x, vary, none, false⟩).setItem
    (.orb .sesinw 1) ⟨y, vary, none, false⟩).setItem (.orb .k 1) ⟨5, .no, none, false⟩

theorem tenDays_user (vary : Vary) (x y : ℝ) (hv : vary ≠ .blank) : UserParams (tenDays vary x y) := by
  unfold tenDays
  refine .set _ _ _ (.set _ _ _ (.set _ _ _ (.set _ _ _ (.set _ _ _ (.new _ _ _ _ (by decide)) (.inl ?_) (by simp)) (.inl ?_) (by simp)) (.inl ?_) hv) (.inl ?_) hv) (.inl ?_) (by simp)
  · show Key.orb .per 1 ∈ [Key.orb .per 1, .orb .tc 1, .orb .secosw 1, .orb .sesinw 1, .orb .k 1]; decide
  · show Key.orb .tc 1 ∈ [Key.orb .per 1, .orb .tc 1, .orb .secosw 1, .orb .sesinw 1, .orb .k 1]; decide
  · show Key.orb .secosw 1 ∈ [Key.orb .per 1, .orb .tc 1, .orb .secosw 1, .orb .sesinw 1, .orb .k 1]; decide
  · show Key.orb .sesinw 1 ∈ [Key.orb .per 1, .orb .tc 1, .orb .secosw 1, .orb .sesinw 1, .orb .k 1]; decide
  · show Key.orb .k 1 ∈ [Key.orb .per 1, .orb .tc 1, .orb .secosw 1, .orb .sesinw 1, .orb .k 1]; decide

/-- Two samples. -/
noncomputable def twoEcc (a δ : ℝ) : Chain 2 := [(.orb .secosw 1, fun _ => a), (.orb .sesinw 1, fun j => if j = 0 then δ else -δ)]

/-- A posterior for which the hypotheses of C128 to C133 hold. -/
theorem tenDays_fit (vary : Vary) (hv : vary ≠ .blank) (u v : ℝ) (mod : Curve) (hmod : mod.Orbital) (opt : Optimiser) (a δ : ℝ) : ∃ (p : PostState) (f : Frame 2) (q : PostState) (synth : Params ℝ), Likes p.st [] ∧ Synced p.st ∧ p.likeCache = none ∧
    p.st.params = tenDays vary u v ∧ (∃ s, prepare p.st (twoEcc a δ) = .ok (f, s)) ∧ postFit 0 (compositeLogprob ([].map fun L : RVLike => L.logprob mod)) opt 0 p (twoEcc a δ) = .ok (f, q, synth) := by
  obtain ⟨s, h1, h2, _, h4⟩ := C01_model (tenDays vary u v) (tenDays_user vary u v hv)
  have hb : Built s := .model _ s (tenDays_user vary u v hv) h1
  have hk : (twoEcc a δ).keys.Nodup := by show [Key.orb .secosw 1, .orb .sesinw 1].Nodup; decide
  have hkeys : s.params.items.keys = [Key.orb .per 1, .orb .tc 1, .orb .secosw 1, .orb .sesinw 1, .orb .k 1] := by rw [h2]; rfl
  obtain ⟨⟨f, s1⟩, hp⟩ := prepare_ok s hb (twoEcc a δ) hk (by
    intro k hkm r hr hvr
    obtain ⟨par, hpar⟩ := Dict.exists_get?_of_mem _ hkm
    obtain ⟨i, r', a1, a2, _, a4, _⟩ := h4 k par hpar
    obtain ⟨i', b1, b2⟩ := hr
    rw [a1] at b1; cases b1
    rw [a2] at b2; cases b2
    have hy := a4.1 hvr
    rw [hkeys] at hkm
    rw [h2] at hpar
    simp only [List.mem_cons, List.not_mem_nil, or_false] at hkm
    rcases hkm with rfl | rfl | rfl | rfl | rfl
    · cases hpar; cases hy
    · cases hpar; cases hy
    · show _ ∈ [Key.orb .secosw 1, .orb .sesinw 1]; decide
    · show _ ∈ [Key.orb .secosw 1, .orb .sesinw 1]; decide
    · cases hpar; cases hy) (by
    intro i hi x hx
    rw [h2] at hi hx
    have : i = 0 := by change i < 1 at hi; omega
    subst this
    rw [hkeys]
    change x ∈ [PName.per, .tc, .secosw, .sesinw, .k] at hx
    revert x
    decide)
  obtain ⟨_, hb1, _⟩ := prepare_shape s hb _ hk f s1 hp
  obtain ⟨s2, hd, _⟩ := C02_read_own_row s1 hb1
  obtain ⟨q, synth, hq, _⟩ := postFit_zero (n := 2) mod hmod [] 0 opt ⟨s, none, none, []⟩ (.start s hb) rfl (twoEcc a δ) hk f s1 s2 hp hd (0 + 0) (by
    unfold logprob priorSum
    simp [compositeLogprob, LikeEval.value, Fl.isFinite, pure, Except.pure])
  exact ⟨⟨s, none, none, []⟩, f, q, synth, .start s hb, h4, rfl, h2, ⟨s1, hp⟩, hq⟩

theorem twoEcc_nodup (a δ : ℝ) : (twoEcc a δ).keys.Nodup := by show [Key.orb .secosw 1, .orb .sesinw 1].Nodup; decide

/-- The parameters in the rows of the samples. -/
theorem twoEcc_row (a δ x y : ℝ) (j : Fin 2) : IsRow (twoEcc a δ) (tenDays .yes x y) j (tenDays .yes a (if j = 0 then δ else -δ)) := by
  refine ⟨rfl, rfl, by show [Key.orb .per 1, .orb .tc 1, .orb .secosw 1, .orb .sesinw 1, .orb .k 1].Nodup; decide, ?_⟩
  intro z hz m hm
  have : m = 1 := by have := hm.1; have : m ≤ 1 := hm.2; omega
  subst this
  change z ∈ [PName.per, .tc, .secosw, .sesinw, .k] at hz
  simp only [List.mem_cons, List.not_mem_nil, or_false] at hz
  rcases hz with rfl | rfl | rfl | rfl | rfl
  · exact ⟨⟨10, .no, none, false⟩, rfl, fun _ => rfl, by simp⟩
  · exact ⟨⟨3, .no, none, false⟩, rfl, fun _ => rfl, by simp⟩
  · exact ⟨⟨x, .yes, none, false⟩, rfl, by simp, fun _ => ⟨_, rfl, rfl⟩⟩
  · exact ⟨⟨y, .yes, none, false⟩, rfl, by simp, fun _ => ⟨_, rfl, rfl⟩⟩
  · exact ⟨⟨5, .no, none, false⟩, rfl, fun _ => rfl, by simp⟩

theorem tenDays_complete (x y : ℝ) : Complete (tenDays .yes x y) := by
  refine ⟨by show [Key.orb .per 1, .orb .tc 1, .orb .secosw 1, .orb .sesinw 1, .orb .k 1].Nodup; decide, ?_⟩
  intro z hz m hm
  have : m = 1 := by have := hm.1; have : m ≤ 1 := hm.2; omega
  subst this
  show _ ∈ [Key.orb .per 1, .orb .tc 1, .orb .secosw 1, .orb .sesinw 1, .orb .k 1]
  change z ∈ [PName.per, .tc, .secosw, .sesinw, .k] at hz
  revert z
  decide

/-- The eccentricity of the converted parameters. -/
theorem tenDays_ecc (dflt : ℝ) (b : Bool) (x y : ℝ) : ∃ q, toSynth dflt (tenDays .yes x y).basis b (tenDays .yes x y) = .ok q ∧ valueOf q .e 1 = some (x ^ 2 + y ^ 2) := by
  obtain ⟨q, h1, _, _, _, _, h2⟩ := toSynth_values dflt b _ (tenDays_complete x y)
  exact ⟨q, h1, (h2 1 ⟨le_refl _, le_refl _⟩).e⟩

/-- Non-vacuity of `C128_hyperbolic_violated`: samples with eccentricity vector (2, 0.01) and (2, -0.01), so eccentricity 4.0001. -/
example (mod : Curve) (hmod : mod.Orbital) (opt : Optimiser) : ∃ (s s' : VState ℝ) (f : Frame 2), prepare s (twoEcc 2 (1 / 100)) = .ok (f, s') ∧ f.at (.orb .tp 1) 0 = some none := by
  obtain ⟨p, f, q, synth, h1, h2, h3, h4, ⟨s, h5⟩, h6⟩ := tenDays_fit .yes (by simp) 0 0 mod hmod opt 2 (1 / 100)
  obtain ⟨hb, _⟩ := h1.built
  obtain ⟨y', g1, g2⟩ := tenDays_ecc 0 false 2 (if (0 : Fin 2) = 0 then 1 / 100 else -(1 / 100))
  exact ⟨p.st, s, f, h5, (C128_hyperbolic_violated p.st hb h2 _ (twoEcc_nodup 2 (1 / 100)) f s h5 0 _ (h4 ▸ twoEcc_row 2 (1 / 100) 0 0 0) (by rw [h4]; show PName.tp ∉ [PName.per, .tc, .secosw, .sesinw, .k]; decide) 0 _ g1 1
    (by rw [h4]; exact ⟨le_refl _, le_refl _⟩) _ g2 (by norm_num)).1⟩

/-- Non-vacuity of C128, C129, C130, C132 and C133: a planet whose eccentricity vector was sampled at (-1/2, 1/100) and (-1/2, -1/100). -/
example (mod : Curve) (hmod : mod.Orbital) (opt : Optimiser) : ∃ (p : PostState) (f : Frame 2) (q : PostState) (synth : Params ℝ) (out : Dict Key (Option Reported)) (r : Reported) (fuel : Nat), Likes p.st [] ∧
    postFit 0 (compositeLogprob ([].map fun L : RVLike => L.logprob mod)) opt 0 p (twoEcc (-1 / 2) (1 / 100)) = .ok (f, q, synth) ∧
    postprocess 0 (compositeLogprob ([].map fun L : RVLike => L.logprob mod)) opt 0 fuel p (twoEcc (-1 / 2) (1 / 100)) = .ok (q, out) ∧ out.get? (.orb .w 1) = some (some r) ∧ 1.9 ≤ r.err ∧ 0 < cos r.med ∧
    out.get? (.orb .tc 1) = some (some ⟨0, 3, 3⟩) ∧ ∃ s, prepare p.st (twoEcc (-1 / 2) (1 / 100)) = .ok (f, s) ∧ ∃ v, s.params.items.get? (.orb .secosw 1) = some ⟨v, .yes, none, false⟩ ∧
      ColQuantile (asCol (fun _ : Fin 2 => (-1 / 2 : ℝ))) 0.5 v := by
  obtain ⟨p, f, q, synth, h1, h2, h3, h4, ⟨s, h5⟩, h6⟩ := tenDays_fit .yes (by simp) 0 0 mod hmod opt (-1 / 2) (1 / 100)
  have hn := twoEcc_nodup (-1 / 2) (1 / 100)
  obtain ⟨hb, _⟩ := h1.built
  have hpl : IsPlanet p.st.params 1 := by rw [h4]; exact ⟨le_refl _, le_refl _⟩
  have hrow : ∀ k par, (tenDays .yes 0 0).items.get? k = some par → ∃ r, RowOf p.st k r ∧ r.value = par.value ∧ (r.vary = true ↔ par.vary = .yes) ∧ r.linear = par.linear := by
    intro k par hp
    obtain ⟨i, r, a1, a2, a3, a4, _, a5⟩ := h2 k par (by rw [h4]; exact hp)
    exact ⟨r, ⟨i, a1, a2⟩, a3, a4, a5⟩
  obtain ⟨rs, rs1, _, rs2, _⟩ := hrow (.orb .secosw 1) ⟨0, .yes, none, false⟩ rfl
  obtain ⟨rn, rn1, _, rn2, _⟩ := hrow (.orb .sesinw 1) ⟨0, .yes, none, false⟩ rfl
  obtain ⟨rt, rt1, rt2, rt3, rt4⟩ := hrow (.orb .tc 1) ⟨3, .no, none, false⟩ rfl
  obtain ⟨r, F, c1, c2, c3⟩ := C132_wrap_violated mod hmod [] 0 opt 0 p h1 (.inl h3) _ hn (by rw [h4]; rfl) 1 hpl (by
    intro x hx
    simp only [List.mem_cons, List.not_mem_nil, or_false] at hx
    rcases hx with rfl | rfl
    · exact ⟨rs, rs1, rs2.2 rfl⟩
    · exact ⟨rn, rn1, rn2.2 rfl⟩) (-1 / 2) (1 / 100) (by norm_num) (by norm_num) (by norm_num) rfl rfl f q synth h6
  have hkeys : p.st.params.items.keys = [Key.orb .per 1, .orb .tc 1, .orb .secosw 1, .orb .sesinw 1, .orb .k 1] := by rw [h4]; rfl
  obtain ⟨out, d1, _⟩ := C133_complete_partial (by norm_num) mod hmod [] 0 opt 0 F p h1 (.inl h3) _ hn f q synth h6 (by
    intro k hk r hr hv
    obtain ⟨par, hpar⟩ := Dict.exists_get?_of_mem _ hk
    obtain ⟨i, r', a1, a2, _, a4, _⟩ := h2 k par hpar
    obtain ⟨i', b1, b2⟩ := hr
    rw [a1] at b1; cases b1
    rw [a2] at b2; cases b2
    have hy := a4.1 hv
    rw [hkeys] at hk
    rw [h4] at hpar
    simp only [List.mem_cons, List.not_mem_nil, or_false] at hk
    rcases hk with rfl | rfl | rfl | rfl | rfl
    · cases hpar; cases hy
    · cases hpar; cases hy
    · show _ ∈ [Key.orb .secosw 1, .orb .sesinw 1]; decide
    · show _ ∈ [Key.orb .secosw 1, .orb .sesinw 1]; decide
    · cases hpar; cases hy) (by
    intro m hm
    have : m = 1 := by have := hm.1; have h := hm.2; rw [h4] at h; change m ≤ 1 at h; omega
    subst this
    obtain ⟨y, e1, e2⟩ := (C128_samples_partial p.st hb h2 _ hn f s h5 0).1 _ (h4 ▸ twoEcc_row (-1 / 2) (1 / 100) 0 0 0) 0
    obtain ⟨o, e3, _, _, _, _, e4⟩ := e2 1 hpl
    obtain ⟨y', g1, g2⟩ := tenDays_ecc 0 false (-1 / 2) (if (0 : Fin 2) = 0 then 1 / 100 else -(1 / 100))
    rw [e1] at g1; cases g1
    have he := e3.e
    rw [g2] at he
    have he := Option.some.inj he
    rw [if_pos rfl] at he
    exact ⟨0, o.tp, e4 (by rw [← he]; norm_num) (by rw [← he]; norm_num)⟩)
  obtain ⟨i1, i2⟩ := C130_fixed_partial (by norm_num) mod hmod [] 0 opt 0 F p h1 (.inl h3) _ hn (q, out) d1 (.orb .tc 1) (by rw [hkeys]; decide) rt rt1 (by
    cases hv : rt.vary
    · rfl
    · exact absurd (rt3.1 hv) (by simp)) (.inr rt4) (by show _ ∉ [Key.orb .secosw 1, .orb .sesinw 1]; decide) (by
    intro m _ x hx hk
    cases hk
    revert hx
    decide)
  rw [rt2] at i1
  obtain ⟨_, _, _, _, m5⟩ := C128_medians (by norm_num) p.st hb _ hn f s h5
  obtain ⟨_, v, _, _, m6, m7, _⟩ := m5 (.orb .secosw 1) ⟨0, .yes, none, false⟩ (by rw [h4]; rfl)
  exact ⟨p, f, q, synth, out, r, F, h1, h6, d1, c1 F (le_refl _) _ d1, c2, c3, i1, s, h5, v, m6, m7 _ rfl⟩

/-- Non-vacuity of C129: the eccentricity is reported. -/
example (mod : Curve) (hmod : mod.Orbital) (opt : Optimiser) : ∃ (p : PostState) (f : Frame 2) (q : PostState) (synth : Params ℝ) (v : Parameter ℝ) (col : Fin 2 → Option ℝ), Likes p.st [] ∧ p.likeCache = none ∧
    postFit 0 (compositeLogprob ([].map fun L : RVLike => L.logprob mod)) opt 0 p (twoEcc (-1 / 2) (1 / 100)) = .ok (f, q, synth) ∧ synth.items.get? (.orb .e 1) = some v ∧ f.get? (.orb .e 1) = some col ∧ col 0 ≠ none := by
  obtain ⟨p, f, q, synth, h1, h2, h3, h4, ⟨s, h5⟩, h6⟩ := tenDays_fit .yes (by simp) 0 0 mod hmod opt (-1 / 2) (1 / 100)
  have hn := twoEcc_nodup (-1 / 2) (1 / 100)
  obtain ⟨hb, _⟩ := h1.built
  have hpl : IsPlanet p.st.params 1 := by rw [h4]; exact ⟨le_refl _, le_refl _⟩
  obtain ⟨s', _, hsh, hbq, _, hsy, _⟩ := postFit_spec mod hmod [] 0 opt 0 p h1 (.inl h3) _ hn f q synth h6
  obtain ⟨y, e1, e3, e5, e4, _⟩ := toSynth_values 0 false q.st.params (complete_of_built hbq)
  rw [hsy] at e1; cases e1
  obtain ⟨v, hv⟩ := Dict.exists_get?_of_mem _ (e4.2 .e (by rw [e3]; decide) 1 ⟨hpl.1, by rw [e5, hsh.planets]; exact hpl.2⟩)
  obtain ⟨y, _, e2⟩ := (C128_samples_partial p.st hb h2 _ hn f s h5 0).1 _ (h4 ▸ twoEcc_row (-1 / 2) (1 / 100) 0 0 0) 0
  obtain ⟨o, _, _, e4, _⟩ := e2 1 hpl
  unfold Frame.at at e4
  rcases hcol : f.get? (.orb .e 1) with _ | col
  · rw [hcol] at e4; cases e4
  rw [hcol] at e4
  exact ⟨p, f, q, synth, v, col, h1, h3, h6, hv, hcol, by
    have : col 0 = some o.e := Option.some.inj e4
    rw [this]
    simp⟩

/-- Non-vacuity of C133, hyperbolic samples: nothing is reported. -/
example (mod : Curve) (hmod : mod.Orbital) (opt : Optimiser) : ∃ (p : PostState) (f : Frame 2) (q : PostState) (synth : Params ℝ), Likes p.st [] ∧
    postFit 0 (compositeLogprob ([].map fun L : RVLike => L.logprob mod)) opt 0 p (twoEcc 2 2) = .ok (f, q, synth) ∧ ∀ fuel res, postprocess 0 (compositeLogprob ([].map fun L : RVLike => L.logprob mod)) opt 0 fuel p (twoEcc 2 2) ≠ .ok res := by
  obtain ⟨p, f, q, synth, h1, h2, h3, h4, _, h6⟩ := tenDays_fit .yes (by simp) 0 0 mod hmod opt 2 2
  refine ⟨p, f, q, synth, h1, h6, ?_⟩
  intro fuel res
  refine C133_hyperbolic_violated mod hmod [] 0 opt 0 fuel p h1 h2 (.inl h3) _ (twoEcc_nodup 2 2) (by rw [h4]; decide) 1 (by rw [h4]; exact ⟨le_refl _, le_refl _⟩) ?_ res
  intro j
  obtain ⟨y, g1, g2⟩ := tenDays_ecc 0 true 2 (if j = 0 then 2 else -2)
  refine ⟨_, y, _, h4 ▸ twoEcc_row 2 2 0 0 j, g1, g2, ?_⟩
  split_ifs <;> norm_num

/-- Non-vacuity of C130, a planet without free parameters: samples of other quantities. -/
example (mod : Curve) (hmod : mod.Orbital) (opt : Optimiser) : ∃ (p : PostState) (chains : Chain 2) (f : Frame 2) (q : PostState) (synth : Params ℝ), Likes p.st [] ∧ Synced p.st ∧ p.likeCache = none ∧ chains.keys.Nodup ∧
    IsPlanet p.st.params 1 ∧ (∀ x ∈ p.st.params.basis.words, ∃ par, p.st.params.items.get? (.orb x 1) = some par ∧ par.vary ≠ .yes ∧ Key.orb x 1 ∉ chains.keys) ∧
    postFit 0 (compositeLogprob ([].map fun L : RVLike => L.logprob mod)) opt 0 p chains = .ok (f, q, synth) := by
  obtain ⟨s, h1, h2, _, h4⟩ := C01_model (tenDays .no (1 / 2) 0) (tenDays_user .no _ _ (by simp))
  have hb : Built s := .model _ s (tenDays_user .no _ _ (by simp)) h1
  have hkeys : s.params.items.keys = [Key.orb .per 1, .orb .tc 1, .orb .secosw 1, .orb .sesinw 1, .orb .k 1] := by rw [h2]; rfl
  have hall : ∀ x ∈ s.params.basis.words, ∃ par, s.params.items.get? (.orb x 1) = some par ∧ par.vary ≠ .yes ∧ Key.orb x 1 ∉ Dict.keys ([(.dvdt, fun _ => 1)] : Chain 2) := by
    intro x hx
    rw [h2]
    rw [h2] at hx
    change x ∈ [PName.per, .tc, .secosw, .sesinw, .k] at hx
    simp only [List.mem_cons, List.not_mem_nil, or_false] at hx
    rcases hx with rfl | rfl | rfl | rfl | rfl
    · exact ⟨⟨10, .no, none, false⟩, rfl, by simp, by show _ ∉ [Key.dvdt]; decide⟩
    · exact ⟨⟨3, .no, none, false⟩, rfl, by simp, by show _ ∉ [Key.dvdt]; decide⟩
    · exact ⟨⟨1 / 2, .no, none, false⟩, rfl, by simp, by show _ ∉ [Key.dvdt]; decide⟩
    · exact ⟨⟨0, .no, none, false⟩, rfl, by simp, by show _ ∉ [Key.dvdt]; decide⟩
    · exact ⟨⟨5, .no, none, false⟩, rfl, by simp, by show _ ∉ [Key.dvdt]; decide⟩
  have hk : Dict.keys ([(.dvdt, fun _ => 1)] : Chain 2) = [.dvdt] := rfl
  obtain ⟨⟨f, s1⟩, hp⟩ := prepare_ok s hb [(.dvdt, fun _ => 1)] (by rw [hk]; simp) (by
    intro k hkm r hr hvr
    obtain ⟨par, hpar⟩ := Dict.exists_get?_of_mem _ hkm
    obtain ⟨i, r', a1, a2, _, a4, _⟩ := h4 k par hpar
    obtain ⟨i', b1, b2⟩ := hr
    rw [a1] at b1; cases b1
    rw [a2] at b2; cases b2
    have hy := a4.1 hvr
    rw [hkeys] at hkm
    rw [h2] at hpar
    simp only [List.mem_cons, List.not_mem_nil, or_false] at hkm
    rcases hkm with rfl | rfl | rfl | rfl | rfl <;> (cases hpar; cases hy)) (by
    intro i hi x hx
    rw [h2] at hi hx
    have : i = 0 := by change i < 1 at hi; omega
    subst this
    rw [hkeys]
    change x ∈ [PName.per, .tc, .secosw, .sesinw, .k] at hx
    revert x
    decide)
  obtain ⟨_, hb1, _⟩ := prepare_shape s hb _ (by rw [hk]; simp) f s1 hp
  obtain ⟨s2, hd, _⟩ := C02_read_own_row s1 hb1
  obtain ⟨q, synth, hq, _⟩ := postFit_zero (n := 2) mod hmod [] 0 opt ⟨s, none, none, []⟩ (.start s hb) rfl [(.dvdt, fun _ => 1)] (by rw [hk]; simp) f s1 s2 hp hd (0 + 0) (by
    unfold logprob priorSum
    simp [compositeLogprob, LikeEval.value, Fl.isFinite, pure, Except.pure])
  exact ⟨⟨s, none, none, []⟩, _, f, q, synth, .start s hb, h4, rfl, by rw [hk]; simp, by rw [show (⟨s, none, none, []⟩ : PostState).st = s from rfl, h2]; exact ⟨le_refl _, le_refl _⟩, hall, hq⟩

theorem TrendState.toDict {tb : ℝ} {L : RVLike} {x c : ℝ} {s s' : VState ℝ} (h : TrendState tb L x c s) (hd : s.vectorToDict = .ok s') : TrendState tb L x c s' := by
  obtain ⟨s1, h1, h2, h3, _, h5, h6, _⟩ := toDict_spec h.built.inv.1 h.built.inv.2
  rw [hd] at h1; cases h1
  refine ⟨.toDict _ _ h.built hd, ⟨by rw [h2]; exact h.on.gamma, by rw [h2]; exact h.on.jit, by rw [h2]; exact h.on.dec⟩, h.suffix, h.obs, h.dec, h6.trans h.planets, ?_⟩
  intro k i hk hi
  rw [h5] at hk
  rw [h2] at hi
  rw [h3]
  exact h.rows k i hk hi

/-- Non-vacuity of C130, analytic offsets: an offset is reported with median 0, maximum -1 and uncertainty 0. -/
example (drive : Drive) (tb : ℝ) (opt : Optimiser) : ∃ (L : RVLike) (p : PostState) (res : PostState × Dict Key (Option Reported)) (r : Row ℝ), Likes p.st [L] ∧ RowOf p.st (.inst .gamma "_a") r ∧ r.linear = true ∧ r.vary = false ∧
    postprocess 0 (compositeLogprob ([L].map fun L => L.logprob (fun s t => modelCall drive tb s none t))) opt 0 0 p ([(.dvdt, fun _ => 1)] : Chain 2) = .ok res ∧ res.2.get? (.inst .gamma "_a") = some (some ⟨0, 0, -1⟩) := by
  obtain ⟨s, L, h1, h2, h3, h4, h5, h6, h7⟩ := flatLike [{ t := tb + 1, y := 0, err := 1 }] "_a" [] [] (trendRow' 1 0)
  obtain ⟨hb, hon⟩ := h1.built
  have ht : TrendState tb L 1 0 s := ⟨hb, hon L (by simp), h3, h4, h5, h2, h7⟩
  have hmod : Curve.Orbital (fun s t => modelCall drive tb s none t) := modelCall_orbital drive tb
  have hnovary : ∀ k ∈ s.params.items.keys, ∀ r, RowOf s k r → r.vary = true → k ∈ Dict.keys ([(.dvdt, fun _ => 1)] : Chain 2) := by
    rintro k hk r ⟨i, hi, hr⟩ hv
    rw [ht.rows k i (.inl hk) hi] at hr
    have hkd : k = .dvdt := by
      cases hr
      unfold trendRow' at hv
      split at hv <;> simp at hv
      rfl
    subst hkd
    show _ ∈ [Key.dvdt]
    simp
  have hk : (Dict.keys ([(.dvdt, fun _ => 1)] : Chain 2)).Nodup := by show [Key.dvdt].Nodup; simp
  have hmid : colMid (fun _ : Fin 2 => (1 : ℝ)) = 1 := by
    unfold colMid
    rw [quantile_const _ 1 (by norm_num) (fun _ => rfl) (by norm_num) (by norm_num)]
    rfl
  have hi0 : s.indices.get? .dvdt = some 0 := by rw [hb.inv.1.dvdtIdx, h2]
  have hrows : ([(.dvdt, fun _ => 1)] : Chain 2).foldlM (setMedian s.params s.indices) s.rows = .ok s.rows := by
    have : setMedian s.params s.indices s.rows (.dvdt, fun _ : Fin 2 => (1 : ℝ)) = .ok s.rows := by
      have hr0 : s.rows[0]? = some (trendRow' 1 0 .dvdt) := ht.rows _ _ (.inr (.inl rfl)) hi0
      unfold setMedian
      simp only [hi0, hr0, hmid]
      split_ifs
      · congr 1
        apply List.ext_getElem?
        intro j
        by_cases hj : j = 0
        · subst hj
          have hlt : 0 < s.rows.length := (List.getElem?_eq_some_iff.1 hr0).1
          rw [hr0]
          simp [hlt, trendRow']
        · rw [List.getElem?_set_ne (Ne.symm hj)]
      · rfl
    simp only [List.foldlM_cons, List.foldlM_nil, this, bind, Except.bind, pure, Except.pure]
  obtain ⟨⟨f, s1⟩, hp⟩ := prepare_ok s hb [(.dvdt, fun _ => 1)] hk hnovary (by rw [h2]; omega)
  have hs1 : s.vectorToDict = .ok s1 := by
    unfold prepare at hp
    rcases hc : s.params.items.keys.foldlM (fillFixed s) ([(.dvdt, fun _ => 1)] : Chain 2) with e | c
    · rw [hc] at hp; cases hp
    rw [hc] at hp
    simp only at hp
    rcases hc2 : c.toSynth s.params.basis s.params.numPlanets with e | f'
    · rw [hc2] at hp; cases hp
    rw [hc2] at hp
    simp only at hp
    rw [hrows] at hp
    change (match s.vectorToDict with | Except.error e => Except.error e | Except.ok s' => Except.ok (f', s')) = _ at hp
    rcases hv : s.vectorToDict with e | s'
    · rw [hv] at hp; cases hp
    rw [hv] at hp
    cases Except.ok.inj hp
    rfl
  have ht1 := ht.toDict hs1
  obtain ⟨s2, hd, _⟩ := C02_read_own_row s1 ht1.built
  have ht2 := ht1.toDict hd
  obtain ⟨s3, g1, g2⟩ := ht2.eval drive
  obtain ⟨q, synth, hq, hq2⟩ := postFit_zero (n := 2) _ hmod [L] 0 opt ⟨s, none, none, []⟩ h1 rfl _ hk f s1 s2 hp hd (.fin 0) (by
    unfold logprob priorSum LikeEval.value
    rw [g1]
    simp [Fl.isFinite, pure, Except.pure])
  have hst : stateAfter (compositeLogprob ([L].map fun L => L.logprob (fun s t => modelCall drive tb s none t))) s2 (priorSum s2 []) = s3 := by
    unfold stateAfter LikeEval.after
    rw [g1]
    rfl
  rw [hst] at hq2
  have ht4 := g2.toDict hq2
  obtain ⟨out, d1, _⟩ := C133_complete_partial (by norm_num) _ hmod [L] 0 opt 0 0 ⟨s, none, none, []⟩ h1 (.inl rfl) _ hk f q synth hq hnovary (by
    intro m hm
    have h8 := hm.1
    have h9 : m ≤ s.params.numPlanets := hm.2
    omega)
  have hg := ht.on.gamma
  rw [h3] at hg
  have hgk : Key.inst .gamma "_a" ∈ s.params.items.keys := (hb.inv.1.ext _ _ rfl rfl hg).1
  have hr : RowOf s (.inst .gamma "_a") (trendRow' 1 0 (.inst .gamma "_a")) := ⟨_, hg, ht.rows _ _ (.inl hgk) hg⟩
  obtain ⟨r', i1, i2⟩ := C130_analytic_violated (by norm_num) _ hmod [L] 0 opt 0 0 ⟨s, none, none, []⟩ h1 (.inl rfl) _ hk (q, out) d1 "_a" hgk _ hr rfl rfl
  have hv : r'.value = -1 := by
    obtain ⟨i, j1, j2⟩ := i1
    have j3 := (ht4.built.inv.1.ext _ _ rfl rfl j1).1
    rw [ht4.rows _ _ (.inl j3) j1] at j2
    cases j2
    simp [trendRow']
  rw [hv] at i2
  exact ⟨L, ⟨s, none, none, []⟩, (q, out), _, h1, hr, rfl, rfl, d1, by simpa [trendRow'] using i2⟩

end Radvel
