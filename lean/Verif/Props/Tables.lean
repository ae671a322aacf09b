import Verif.Lemmas.Tables
import Verif.Spec.Tables
import Verif.Props.Chains
import Verif.Props.Report
import Verif.Props.RowText
import Verif.Props.Orbit

/-!
# C171: the samples of the report; C172: conversions of tables
-/

namespace Radvel
open Real

theorem valOf_reads (b : BasisName) (v : Vals) (x : PName) (hx : x ∈ synthReads b) (h : x = .tc ∨ x ∈ BasisName.words .perTpEWK) : valOf (synthOfVals b v) x = v x := by
  cases b <;> cases x <;> first
    | (exfalso; revert hx; decide)
    | (exfalso; revert h; decide)
    | rfl
    | exact timeperi_timetrans _ _ _ _

theorem valueOf_valsOf {p : Params ℝ} {x : PName} {m : Nat} (h : Key.orb x m ∈ p.items.keys) : valueOf p x m = some (valsOf p m x) := by
  obtain ⟨r, hr⟩ := Dict.exists_get?_of_mem _ h
  simp [valueOf, valsOf, hr]

/-- The conversion of the parameters keeps the values of the basis. -/
theorem reportConvert_keeps (dflt : ℝ) (p : Params ℝ) (h : Complete p) : ∃ q, reportConvert dflt p = .ok q ∧ q.numPlanets = p.numPlanets ∧
    (∀ x ∈ synthReads p.basis, ∀ m, IsPlanet p m → valueOf q x m = valueOf p x m) ∧
    ∀ k, (∀ m, IsPlanet p m → ∀ x ∈ PName.tc :: synthNames, k ≠ .orb x m) → q.items.get? k = p.items.get? k := by
  obtain ⟨q1, a1, _, a2, a3, a4⟩ := toSynth_values dflt true p h
  obtain ⟨q1', b1, _, _, b4, b5, _, b7, b8⟩ := toSynth_spec dflt true p _ h.hasVals
  rw [a1] at b1; cases b1
  obtain ⟨q, c1, _, _, _, c5, _, c7, c8⟩ := fromSynth_spec dflt .perTcTpEWK true q1 _ a3.hasVals (by assumption) b4
  have hnum : q.numPlanets = p.numPlanets := c5.trans a2
  refine ⟨q, ?_, hnum, ?_, ?_⟩
  · unfold reportConvert
    rw [a1]
    exact c1
  · intro x hx m hm
    have hvals : synthOfVals .perTpEWK (valsOf q1 m) = synthOfVals p.basis (valsOf p m) := (a4.2 m hm).eq_vals
    have hpx := valueOf_valsOf (h.2 x (synthReads_words _ x hx) m hm)
    rw [hpx]
    have d := c7 x m hm.1 (by rw [a2]; exact hm.2)
    rw [if_neg (by simp)] at d
    unfold valueOf
    rw [d]
    by_cases h1 : x ∈ newNames .perTcTpEWK
    · rw [if_pos h1, hvals]
      have : valOf (synthOfVals p.basis (valsOf p m)) x = valsOf p m x := valOf_reads _ _ _ hx (by
        revert h1; cases x <;> decide)
      rw [this]
      simp only [Option.map_some, newPar]
      split <;> rfl
    · rw [if_neg h1, b7 x m hm.1 hm.2]
      by_cases h2 : x ∈ BasisName.words .perTpEWK
      · rw [if_pos h2, valOf_reads _ _ _ hx (.inr h2)]
        simp only [Option.map_some, newPar]
        split <;> rfl
      · rw [if_neg h2]
        exact hpx
  · intro k hk
    by_cases hpl : ∃ x m, IsPlanet p m ∧ k = .orb x m
    · obtain ⟨x, m, hm, rfl⟩ := hpl
      have h1 : x ∉ PName.tc :: synthNames := fun h => hk m hm x h rfl
      have d := c7 x m hm.1 (by rw [a2]; exact hm.2)
      rw [if_neg (by simp), if_neg (by revert h1; cases x <;> decide), b7 x m hm.1 hm.2, if_neg (by revert h1; cases x <;> decide)] at d
      exact d
    · rw [c8 k (fun x m h1 h2 he => hpl ⟨x, m, ⟨h1, by rw [← a2]; exact h2⟩, he⟩), b8 k (fun x m h1 h2 he => hpl ⟨x, m, ⟨h1, h2⟩, he⟩)]

theorem synthCell_congr_reads (b : BasisName) (v v' : PName → ℝ) (h : ∀ x ∈ synthReads b, v x = v' x) : synthCell b v = synthCell b v' := by
  cases b <;> simp only [synthReads, List.mem_cons, List.not_mem_nil, or_false, forall_eq_or_imp, forall_eq] at h <;>
    simp only [synthCell, h]

/-- The values of row `j` for planet `m`. -/
noncomputable def rowVals {n : Nat} (c : Chain n) (p : Params ℝ) (j : Fin n) (m : Nat) (x : PName) : ℝ := (rowValue c p j (.orb x m)).getD 0

/-- The columns of the report's samples. -/
theorem reportSamples_spec {n : Nat} (dflt : ℝ) (p : Params ℝ) (h : Complete p) (c : Chain n) : ∃ f, reportSamples dflt p p.basis c = .ok f ∧
    (∀ m, IsPlanet p m → ∀ x ∈ synthNames, f.get? (.orb x m) = some (fun j => (synthCell p.basis (rowVals c p j m)).get x)) ∧
    (∀ m, IsPlanet p m → f.get? (.orb .tc m) = some (fun j =>
      let s := synthCell p.basis (rowVals c p j m)
      timeperiCell s.tp (some s.per) (some s.e) (some s.w))) ∧
    ∀ k, (∀ m, IsPlanet p m → ∀ x ∈ PName.tc :: synthNames, k ≠ .orb x m) → ∀ j, f.at k j = (rowValue c p j k).map some := by
  obtain ⟨q, hq, hnum, h1, h2⟩ := reportConvert_keeps dflt p h
  have hfill := get?_fillColumns (n := n) q
  have hcell : ∀ m, IsPlanet p m → ∀ x ∈ synthReads p.basis, Key.orb x m ∈ (fillColumns q c).keys ∧ ∀ j, (fillColumns q c).cell m j x = rowVals c p j m x := by
    intro m hm x hx
    have e1 := h1 x hx m hm
    rw [valueOf_valsOf (h.2 x (synthReads_words _ x hx) m hm)] at e1
    have e2 := valueOf_valsOf (h.2 x (synthReads_words _ x hx) m hm)
    have e3 := hfill (.orb x m) c
    unfold Chain.cell rowVals rowValue
    unfold valueOf at e1 e2
    rw [← Dict.get?_isSome_iff, e3]
    cases hc : c.get? (.orb x m) with
    | some col => simp
    | none =>
      obtain ⟨r, hr, hv⟩ := Option.map_eq_some_iff.1 e1
      obtain ⟨r', hr', hv'⟩ := Option.map_eq_some_iff.1 e2
      simp [hr, hr', hv, hv']
  obtain ⟨g, hg⟩ := (fillColumns q c).toSynth_ok p.basis q.numPlanets (by
    intro i hi x hx
    exact (hcell (i + 1) ⟨by omega, by omega⟩ x hx).1)
  obtain ⟨_, g2, g3⟩ := (fillColumns q c).toSynth_spec _ _ _ hg
  have g4 : ∀ m, IsPlanet p m → ∀ x ∈ synthNames, g.get? (.orb x m) = some (fun j => (synthCell p.basis (rowVals c p j m)).get x) := by
    intro m hm x hx
    have := g2 (m - 1) (by have := hm.1; have := hm.2; omega) x hx
    rw [Nat.sub_add_cancel hm.1] at this
    rw [this]
    congr 1
    funext j
    rw [synthCell_congr_reads p.basis _ _ (fun x hx => (hcell m hm x hx).2 j)]
  obtain ⟨f, hf, f1, f2⟩ := Frame.fromSynth_spec none .perTcTpEWK g (.inl rfl) q.numPlanets (by
    intro i hi x hx
    exact Dict.mem_keys_of_get? _ (g4 (i + 1) ⟨by omega, by omega⟩ x hx))
  have hres : reportSamples dflt p p.basis c = .ok f := by
    unfold reportSamples
    rw [hq]
    simp only
    rw [hg]
    exact hf
  have gcell : ∀ m, IsPlanet p m → ∀ x ∈ synthNames, ∀ j, g.cell m j x = (synthCell p.basis (rowVals c p j m)).get x := by
    intro m hm x hx j
    unfold Frame.cell
    rw [g4 m hm x hx]
    rfl
  refine ⟨f, hres, ?_, ?_, ?_⟩
  · intro m hm x hx
    by_cases hw : x = .w
    · subst hw
      have := f1 (m - 1) (by have := hm.1; have := hm.2; omega) .w (fun v => v .w) (by simp [fromFormulas])
      rw [Nat.sub_add_cancel hm.1] at this
      rw [this]
      congr 1
      funext j
      exact gcell m hm .w (by decide) j
    · rw [f2, g4 m hm x hx]
      intro i hi y hy he
      injection he with he
      subst he
      revert hx hy hw
      cases x <;> decide
  · intro m hm
    have := f1 (m - 1) (by have := hm.1; have := hm.2; omega) .tc tcCell (by simp [fromFormulas])
    rw [Nat.sub_add_cancel hm.1] at this
    rw [this]
    congr 1
    funext j
    unfold tcCell
    rw [gcell m hm _ (by decide), gcell m hm _ (by decide), gcell m hm _ (by decide), gcell m hm _ (by decide)]
    rfl
  · intro k hk j
    have hk' : ∀ i < q.numPlanets, ∀ x ∈ PName.tc :: synthNames, k ≠ .orb x (i + 1) := fun i hi x hx => hk (i + 1) ⟨by omega, by omega⟩ x hx
    have hks : ∀ m, IsPlanet p m → ∀ x ∈ PName.tc :: synthNames, k ≠ .orb x m := hk
    unfold Frame.at
    rw [f2 k (fun i hi x hx => hk' i hi x (by revert hx; cases x <;> decide)), g3 k (fun i hi x hx => hk' i hi x (List.mem_cons_of_mem _ hx)), hfill]
    unfold rowValue
    cases hc : c.get? k with
    | some col => simp
    | none =>
      rw [h2 k hks]
      cases p.items.get? k <;> simp

theorem isConjunction_tc (s : Synth) (h0 : 0 ≤ s.e) (h1 : s.e < 1) (hP : s.per ≠ 0) (hw : cos ((π / 2 - s.w) / 2) ≠ 0) : IsConjunction s (timeperiToTimetrans s.tp s.per s.e s.w false) := by
  refine ⟨eccAnomalyAt (π / 2 - s.w) s.e, π / 2 - s.w, 0, ?_, ?_, by push_cast; ring⟩
  · unfold IsEccAnomaly timeperiToTimetrans
    rw [if_neg (by linarith)]
    simp only [Bool.false_eq_true, if_false]
    have := pi_pos.ne'
    field_simp
    ring
  · obtain ⟨h2, h3⟩ := nu_eccAnomalyAt (by linarith) h1 hw
    exact ⟨h2.symm, h3.symm⟩

theorem IsReportRow.complete {n : Nat} {c : Chain n} {p r : Params ℝ} {j : Fin n} (hr : IsReportRow c p j r) (hp : Complete p) : Complete r := by
  refine ⟨hr.nodup, ?_⟩
  intro x hx m hm
  rw [hr.basis] at hx
  have hm' : IsPlanet p m := ⟨hm.1, by rw [← hr.planets]; exact hm.2⟩
  have := hr.vals x hx m hm'
  unfold valueOf rowValue at this
  rw [← Dict.get?_isSome_iff]
  cases hc : c.get? (.orb x m) with
  | some col =>
    rw [hc] at this
    cases hg : r.items.get? (.orb x m) with
    | none => simp [hg] at this
    | some v => rfl
  | none =>
    obtain ⟨v, hv⟩ := Dict.exists_get?_of_mem _ (hp.2 x hx m hm')
    rw [hc, hv] at this
    cases hg : r.items.get? (.orb x m) with
    | none => simp [hg] at this
    | some v => rfl

theorem IsReportRow.rowVals {n : Nat} {c : Chain n} {p r : Params ℝ} {j : Fin n} (hr : IsReportRow c p j r) {m : Nat} (hm : IsPlanet p m) (x : PName) (hx : x ∈ p.basis.words) :
    valsOf r m x = rowVals c p j m x := by
  unfold Radvel.rowVals valsOf
  rw [hr.vals x hx m hm]

/-! ## C171 -/

/-- C171: the samples of the report are the samples: in the row of every sample, the cells `per`, `tp`, `e`, `w` and `k` of every planet are the orbit that the conversion of the parameters of this sample gives (those that
were not sampled having their values in the posterior), the cell `tc` is the time of conjunction of this orbit and, if the fit was in terms of it, the sampled (or fixed) one; the other columns are those of the chains, and
constant columns with the values of the posterior for parameters that were not sampled. Missing: `tp` and `tc` of samples with eccentricity above 1, see `C171_hyperbolic_violated`. -/
theorem C171_rows_partial {n : Nat} (dflt : ℝ) (noVary : Bool) (p : Params ℝ) (hp : Complete p) (c : Chain n) (j : Fin n) (r : Params ℝ) (hr : IsReportRow c p j r) :
    ∃ f q, reportSamples dflt p p.basis c = .ok f ∧ toSynth dflt r.basis noVary r = .ok q ∧
      (∀ m, IsPlanet p m → ∃ s, SynthPlanet q m s ∧ f.at (.orb .per m) j = some (some s.per) ∧ f.at (.orb .e m) j = some (some s.e) ∧ f.at (.orb .w m) j = some (some s.w) ∧
        f.at (.orb .k m) j = some (some s.k) ∧ (0 ≤ s.e → s.e ≤ 1 → f.at (.orb .tp m) j = some (some s.tp) ∧ ∃ tc, f.at (.orb .tc m) j = some (some tc) ∧
          (PName.tc ∈ p.basis.words → PName.tp ∉ p.basis.words → rowValue c p j (.orb .tc m) = some tc) ∧ (s.e < 1 → s.per ≠ 0 → cos ((π / 2 - s.w) / 2) ≠ 0 → IsConjunction s tc))) ∧
      ∀ k, (∀ m, IsPlanet p m → ∀ x ∈ [PName.tc, .per, .tp, .e, .w, .k], k ≠ .orb x m) → f.at k j = (rowValue c p j k).map some := by
  obtain ⟨f, hf, f1, f2, f3⟩ := reportSamples_spec dflt p hp c
  obtain ⟨q, hq, _, _, _, _, hs⟩ := toSynth_values dflt noVary r (hr.complete hp)
  refine ⟨f, q, hf, hq, ?_, fun k hk => f3 k hk j⟩
  intro m hm
  have hm' : IsPlanet r m := ⟨hm.1, by rw [hr.planets]; exact hm.2⟩
  have h1 := hs m hm'
  rw [hr.basis] at h1
  have hc : synthCell p.basis (rowVals c p j m) = synthCell p.basis (valsOf r m) := synthCell_congr p.basis _ _ fun x hx => (hr.rowVals hm x hx).symm
  obtain ⟨e1, e2, e3, e4, e5, _⟩ := synthCell_vals p.basis (valsOf r m)
  have hat : ∀ x ∈ synthNames, f.at (.orb x m) j = some ((synthCell p.basis (valsOf r m)).get x) := by
    intro x hx
    unfold Frame.at
    rw [f1 m hm x hx]
    simp only [Option.map_some, hc]
  refine ⟨_, h1, ?_, ?_, ?_, ?_, ?_⟩
  · rw [hat _ (by decide), ← e1]; rfl
  · rw [hat _ (by decide), ← e2]; rfl
  · rw [hat _ (by decide), ← e3]; rfl
  · rw [hat _ (by decide), ← e4]; rfl
  · intro h0 h2
    have htp := e5 (by linarith) h2
    refine ⟨by rw [hat _ (by decide)]; exact congrArg some htp, _, ?_, ?_, fun h3 h4 h5 => isConjunction_tc _ h0 h3 h4 h5⟩
    · unfold Frame.at
      rw [f2 m hm]
      simp only [Option.map_some, hc]
      rw [htp, e1, e2, e3, timeperiCell_eq _ _ _ _ (by linarith) h2]
    · intro g1 g2
      have hread : PName.tc ∈ synthReads p.basis := by
        revert g1 g2
        cases p.basis <;> decide
      have := valOf_reads p.basis (valsOf r m) .tc hread (.inl rfl)
      rw [← hr.vals _ g1 m hm, valueOf_valsOf ((hr.complete hp).2 _ (by rw [hr.basis]; exact g1) m hm')]
      exact congrArg some this.symm

/-- C171 in full is false: a sample with eccentricity above 1 has no time of conjunction in the report's samples, in any basis, even if the time of conjunction was sampled (and in the latter case no time of periastron). -/
theorem C171_hyperbolic_violated {n : Nat} (dflt : ℝ) (noVary : Bool) (p : Params ℝ) (hp : Complete p) (c : Chain n) (j : Fin n) (r : Params ℝ) (hr : IsReportRow c p j r) (q : Params ℝ)
    (hq : toSynth dflt r.basis noVary r = .ok q) (m : Nat) (hm : IsPlanet p m) (e : ℝ) (he : valueOf q .e m = some e) (h1 : 1 < e) :
    ∃ f, reportSamples dflt p p.basis c = .ok f ∧ f.at (.orb .tc m) j = some none ∧
      (PName.tp ∉ p.basis.words → f.at (.orb .tp m) j = some none ∧ rowValue c p j (.orb .tc m) ≠ none) := by
  obtain ⟨f, hf, f1, f2, f3⟩ := reportSamples_spec dflt p hp c
  obtain ⟨q', hq', _, _, _, _, hs⟩ := toSynth_values dflt noVary r (hr.complete hp)
  rw [hq] at hq'; cases hq'
  have hm' : IsPlanet r m := ⟨hm.1, by rw [hr.planets]; exact hm.2⟩
  have h2 := hs m hm'
  rw [hr.basis] at h2
  have hc : synthCell p.basis (rowVals c p j m) = synthCell p.basis (valsOf r m) := synthCell_congr p.basis _ _ fun x hx => (hr.rowVals hm x hx).symm
  obtain ⟨e1, e2, e3, e4, _, e6⟩ := synthCell_vals p.basis (valsOf r m)
  have h3 : (synthOfVals p.basis (valsOf r m)).e = e := by rw [h2.e] at he; exact Option.some.inj he
  refine ⟨f, hf, ?_, ?_⟩
  · unfold Frame.at
    rw [f2 m hm]
    simp only [Option.map_some, hc]
    rw [timeperiCell_nan _ _ _ _ (by rw [e2, h3]; exact h1)]
  · intro hb
    refine ⟨?_, ?_⟩
    · unfold Frame.at
      rw [f1 m hm _ (by decide)]
      simp only [Option.map_some, hc]
      exact congrArg some (e6 (by rw [h3]; exact h1) hb).1
    · have htc : PName.tc ∈ p.basis.words := by
        revert hb
        cases p.basis <;> decide
      rw [← hr.vals _ htc m hm, valueOf_valsOf ((hr.complete hp).2 _ (by rw [hr.basis]; exact htc) m hm')]
      simp

/-- C171, columns: if no sample has an eccentricity above 1, the column of a sampled time of conjunction in the report is the sampled one, so that its quantiles are those of the samples. Missing: as above. -/
theorem C171_column_partial {n : Nat} (dflt : ℝ) (p : Params ℝ) (hp : Complete p) (c : Chain n) (m : Nat) (hm : IsPlanet p m) (htc : PName.tc ∈ p.basis.words) (htp : PName.tp ∉ p.basis.words) (col : Fin n → ℝ)
    (hcol : c.get? (.orb .tc m) = some col)
    (hE : ∀ j, ∃ r q e, IsReportRow c p j r ∧ toSynth dflt r.basis true r = .ok q ∧ valueOf q .e m = some e ∧ 0 ≤ e ∧ e ≤ 1) :
    ∃ f, reportSamples dflt p p.basis c = .ok f ∧ f.get? (.orb .tc m) = some (fun j => some (col j)) := by
  obtain ⟨f, hf, f1, f2, f3⟩ := reportSamples_spec dflt p hp c
  refine ⟨f, hf, ?_⟩
  rw [f2 m hm]
  congr 1
  funext j
  obtain ⟨r, q, e, hr, hq, he, h0, h1⟩ := hE j
  obtain ⟨f', q', g1, g2, g3, _⟩ := C171_rows_partial dflt true p hp c j r hr
  rw [hf] at g1; cases g1
  rw [hq] at g2; cases g2
  obtain ⟨s, s1, _, _, _, _, s2⟩ := g3 m hm
  have : s.e = e := by have := s1.e; rw [he] at this; exact (Option.some.inj this).symm
  obtain ⟨_, tc, t1, t2, _⟩ := s2 (by rw [this]; exact h0) (by rw [this]; exact h1)
  have t3 := t2 htc htp
  unfold Frame.at at t1
  rw [f2 m hm] at t1
  simp only [Option.map_some, Option.some.injEq] at t1
  unfold rowValue at t3
  rw [hcol] at t3
  simp only at t3
  rw [t1, ← t3]

/-- Three samples of the time of conjunction and the eccentricity of one planet. -/
noncomputable def threeSamples : Chain 3 := [(.orb .tc 1, fun j => ([10, 20, 30] : List ℝ)[j]), (.orb .e 1, fun j => ([1 / 2, 2, 2] : List ℝ)[j])]

theorem oneMissing : quantile (fun j : Fin 3 => ([some 10, none, none] : List (Option ℝ))[j]) 0.5 = some (10 : ℝ) := by
  have : ((List.ofFn fun j : Fin 3 => ([some 10, none, none] : List (Option ℝ))[j]).reduceOption).mergeSort (fun a b => decide (a ≤ b)) = [(10 : ℝ)] := by
    simp [List.ofFn_succ, List.reduceOption]
  unfold quantile
  rw [this]
  simp [quantileSorted]

theorem threeCells : ∀ j : Fin 3, timeperiCell (timetransCell (([10, 20, 30] : List ℝ)[j]) 1 (([1 / 2, 2, 2] : List ℝ)[j]) 1) (some 1) (some (([1 / 2, 2, 2] : List ℝ)[j])) (some 1) =
    ([some 10, none, none] : List (Option ℝ))[j] := by
  have n1 : timeperiCell (timetransCell 10 1 (1 / 2) 1) (some 1) (some (1 / 2)) (some 1) = some 10 := by
    rw [timetransCell_eq _ _ _ _ (by norm_num) (by norm_num), timeperiCell_eq _ _ _ _ (by norm_num) (by norm_num), timeperi_timetrans]
  have n2 : ∀ tp, timeperiCell tp (some 1) (some 2) (some 1) = none := fun tp => timeperiCell_nan _ _ _ _ (by norm_num)
  intro j
  obtain ⟨j, hj⟩ := j
  obtain rfl | rfl | rfl : j = 0 ∨ j = 1 ∨ j = 2 := by omega
  · exact n1
  · exact n2 _
  · exact n2 _

theorem init_complete (v : ℝ) : Complete (Params.init v 1 .perTcEWK none) := by
  have hk : (Params.init v 1 .perTcEWK none).items.keys = [.orb .per 1, .orb .tc 1, .orb .e 1, .orb .w 1, .orb .k 1] := rfl
  refine ⟨by rw [hk]; decide, ?_⟩
  intro x hx m hm
  have : m = 1 := by have := hm.1; have : m ≤ 1 := hm.2; omega
  subst this
  rw [hk]
  change x ∈ [PName.per, .tc, .e, .w, .k] at hx
  revert x
  decide

/-- C171 in full is false, for the number in the table: the time of conjunction was sampled at 10, 20 and 30, and the median of the column from which the report takes the median is 10, because the other two
samples have an eccentricity above 1. -/
theorem C171_median_violated (dflt : ℝ) : ∃ f col, reportSamples dflt (Params.init 1 1 .perTcEWK none) .perTcEWK threeSamples = .ok f ∧ f.get? (.orb .tc 1) = some col ∧ quantile col 0.5 = some 10 ∧
    threeSamples.get? (.orb .tc 1) = some (fun j => ([10, 20, 30] : List ℝ)[j]) ∧ quantile (fun j : Fin 3 => some (([10, 20, 30] : List ℝ)[j])) 0.5 = some 20 := by
  obtain ⟨f, hf, _, f2, _⟩ := reportSamples_spec dflt _ (init_complete 1) threeSamples
  have h := f2 1 ⟨le_refl _, le_refl _⟩
  have v1 : ∀ j, rowVals threeSamples (Params.init 1 1 .perTcEWK none) j 1 .per = 1 := fun _ => rfl
  have v2 : ∀ j, rowVals threeSamples (Params.init 1 1 .perTcEWK none) j 1 .w = 1 := fun _ => rfl
  have v3 : ∀ j, rowVals threeSamples (Params.init 1 1 .perTcEWK none) j 1 .e = ([1 / 2, 2, 2] : List ℝ)[j] := fun _ => rfl
  have v4 : ∀ j, rowVals threeSamples (Params.init 1 1 .perTcEWK none) j 1 .tc = ([10, 20, 30] : List ℝ)[j] := fun _ => rfl
  have hb : (Params.init (1 : ℝ) 1 .perTcEWK none).basis = .perTcEWK := rfl
  rw [hb] at hf h
  simp only [synthCell, v1, v2, v3, v4] at h
  refine ⟨f, _, hf, h, ?_, rfl, (quantile_three 10 20 30 (by norm_num) (by norm_num)).2.1⟩
  rw [funext threeCells]
  exact oneMissing

/-! ## C172 -/

/-- C172: `from_synth` converts a table row by row: the cells of the new columns are the values that the conversion of the parameters of the row gives, for every planet, and the other columns are kept. Missing: tables without the
attribute `planet_parameters` for the bases that ask for it (`C172_attribute_violated`), `keep=False` (`C172_keep_violated`), and eccentricities above 1. -/
theorem C172_rows_partial {n : Nat} (dflt : ℝ) (attr : Option (List PName)) (nb : BasisName) (ha : nb ∈ [BasisName.perTpEWK, .perTcEWK, .perTcTpEWK, .perTcSeWK] ∨ ∃ l, attr = some l ∧ PName.tp ∈ l) (f : Frame n)
    (j : Fin n) (p : Params ℝ) (hc : IsCells f j p) (hs : ∀ m, IsPlanet p m → ∀ s, SynthPlanet p m s → 0 ≤ s.e ∧ s.e ≤ 1 ∧ 0 < s.per ∧ 0 < s.k) :
    ∃ g q, f.fromSynth attr nb true p.numPlanets = .ok g ∧ Radvel.fromSynth dflt nb true p = .ok q ∧
      (∀ m, IsPlanet p m → ∀ x ∈ nb.words, ∃ v, valueOf q x m = some v ∧ g.at (.orb x m) j = some (some v)) ∧
      ∀ k, (∀ m, IsPlanet p m → ∀ x ∈ PName.tc :: nb.words, k ≠ .orb x m) → g.at k j = f.at k j := by
  obtain ⟨q, hq, _, _, _, h1⟩ := fromSynth_values dflt nb true p hc.complete hc.basis hc.names
  have hcol : ∀ m, IsPlanet p m → ∀ x ∈ synthNames, Key.orb x m ∈ f.keys ∧ f.cell m j x = some (valsOf p m x) ∧ f.at (.orb x m) j = some (some (valsOf p m x)) := by
    intro m hm x hx
    obtain ⟨v, a1, a2⟩ := hc.vals x hx m hm
    have hv : valsOf p m x = v := by unfold valsOf; rw [a2]; rfl
    rw [hv]
    refine ⟨?_, ?_, a1⟩
    · unfold Frame.at at a1
      obtain ⟨col, b1, _⟩ := Option.map_eq_some_iff.1 a1
      exact Dict.mem_keys_of_get? _ b1
    · unfold Frame.at at a1
      obtain ⟨col, b1, b2⟩ := Option.map_eq_some_iff.1 a1
      unfold Frame.cell
      rw [b1]
      exact b2
  obtain ⟨g, hg, g1, g2⟩ := Frame.fromSynth_spec attr nb f (by
    rcases ha with ha | ha
    · refine .inl ?_
      revert ha
      cases nb <;> decide
    · exact .inr ha) p.numPlanets (fun i hi x hx => (hcol (i + 1) ⟨by omega, by omega⟩ x hx).1)
  refine ⟨g, q, hg, hq, ?_, ?_⟩
  · intro m hm x hx
    refine ⟨_, h1 m hm x hx, ?_⟩
    have hval : ∀ y ∈ synthNames, valsOf p m y = valOf (synthOfVals .perTpEWK (valsOf p m)) y := by
      intro y hy
      revert hy
      cases y <;> first | (intro _; rfl) | (intro hy; exact absurd hy (by decide))
    by_cases hn : x ∈ newNames nb
    · rw [← fromFormulas_names] at hn
      obtain ⟨⟨y, gg⟩, hy, rfl⟩ := List.mem_map.1 hn
      have := g1 (m - 1) (by have := hm.1; have := hm.2; omega) y gg hy
      rw [Nat.sub_add_cancel hm.1] at this
      unfold Frame.at
      rw [this]
      simp only [Option.map_some]
      have hsp : SynthPlanet p m (synthOfVals .perTpEWK (valsOf p m)) := by
        apply synthPlanet_of_values
        intro z hz
        rw [← hval z hz]
        exact valueOf_valsOf (hc.complete.2 z (by rw [hc.basis]; exact hz) m hm)
      obtain ⟨s0, s1, s2, s3⟩ := hs m hm _ hsp
      rw [fromFormulas_val nb _ (synthOfVals .perTpEWK (valsOf p m)) (fun z hz => by rw [(hcol m hm z hz).2.1, hval z hz]) s0 s1 s2 s3 y gg hy]
    · have hx' : x ∈ synthNames := by
        revert hx hn
        cases nb <;> cases x <;> decide
      unfold Frame.at
      rw [g2 _ (by
        intro i hi y hy he
        injection he with he
        exact hn (he ▸ hy))]
      rw [← hval x hx']
      exact (hcol m hm x hx').2.2
  · intro k hk
    unfold Frame.at
    rw [g2 k (fun i hi x hx => hk (i + 1) ⟨by omega, by omega⟩ x (by revert hx; cases nb <;> cases x <;> decide))]

theorem fromSynth_first {n : Nat} (attr : Option (List PName)) (nb : BasisName) (keep : Bool) (f : Frame n) (N : Nat) (hN : 1 ≤ N) (e : PyErr) (h : f.fromPlanet attr nb keep f 0 = .error e) :
    f.fromSynth attr nb keep N = .error e := by
  obtain ⟨N, rfl⟩ : ∃ M, N = M + 1 := ⟨N - 1, by omega⟩
  unfold Frame.fromSynth
  rw [List.range_succ_eq_map, List.foldlM_cons, h]
  rfl

/-- C172 in full is false: samples converted to `per tp e w k` cannot be converted further to any basis other than three, because the branches ask the table for an attribute that it does not have: `AttributeError`. -/
theorem C172_attribute_violated {n : Nat} (c : Chain n) (b nb : BasisName) (hnb : nb ∉ [BasisName.perTpEWK, .perTcEWK, .perTcTpEWK, .perTcSeWK]) (keep : Bool) (N : Nat) (hN : 1 ≤ N) (f : Frame n)
    (hf : c.toSynth b N = .ok f) : f.fromSynth none nb keep N = .error .attributeError := by
  refine fromSynth_first _ _ _ _ _ hN _ ?_
  obtain ⟨_, h1, _⟩ := c.toSynth_spec _ _ _ hf
  have h : ∀ x ∈ synthNames, f.has (.orb x (0 + 1)) = true := fun x hx => (Dict.has_iff _ _).2 (Dict.mem_keys_of_get? _ (h1 0 hN x hx))
  unfold Frame.fromPlanet
  simp only [h .per (by decide), h .e (by decide), h .w (by decide), h .k (by decide), List.all_cons, List.all_nil, Bool.and_self, if_true]
  rw [if_neg (by rintro rfl; exact hnb (by decide)), if_neg (by revert hnb; cases nb <;> decide)]

/-- C172 in full is false: `keep=False` raises for every table and every new basis but two, because the names to be removed are looked up among the rows. -/
theorem C172_keep_violated {n : Nat} (nb : BasisName) (hnb : nb ∉ [BasisName.perTpEWK, .perTcTpEWK]) (attr : Option (List PName)) (N : Nat) (hN : 1 ≤ N) (f : Frame n) :
    ∃ e, f.fromSynth attr nb false N = .error e := by
  have hd : delsOf nb ≠ [] := by
    revert hnb
    cases nb <;> decide
  have : ∃ e, f.fromPlanet attr nb false f 0 = .error e := by
    unfold Frame.fromPlanet dropColumns
    simp only [Bool.false_eq_true, if_false, if_neg hd]
    rw [if_neg (by rintro rfl; exact hnb (by decide))]
    repeat' split
    all_goals exact ⟨_, rfl⟩
  obtain ⟨e, he⟩ := this
  exact ⟨e, fromSynth_first _ _ _ _ _ hN _ he⟩

theorem fromSynth_keep {n : Nat} (nb : BasisName) (hnb : nb ∈ [BasisName.perTpEWK, .perTcTpEWK]) (N : Nat) (f : Frame n) : f.fromSynth none nb false N = f.fromSynth none nb true N := by
  have : delsOf nb = [] := by revert hnb; cases nb <;> decide
  unfold Frame.fromSynth Frame.fromPlanet
  simp [this]

/-- C172, both conversions together: samples in any basis convert by `to_any_basis` to two bases, as `to_synth` followed by `from_synth` with `keep=True` converts them. Missing: all others (`C172_any_violated`). -/
theorem C172_any_partial {n : Nat} (c : Chain n) (b nb : BasisName) (hnb : nb ∈ [BasisName.perTpEWK, .perTcTpEWK]) (N : Nat) :
    c.toAnyBasis b nb N = match c.toSynth b N with
      | .error e => .error e
      | .ok f => f.fromSynth none nb true N := by
  unfold Chain.toAnyBasis
  cases c.toSynth b N with
  | error e => rfl
  | ok f => exact fromSynth_keep nb hnb N f

/-- C172 in full is false: `to_any_basis` raises for every table of samples and every new basis but two, among them the basis the samples are in. -/
theorem C172_any_violated {n : Nat} (c : Chain n) (b nb : BasisName) (hnb : nb ∉ [BasisName.perTpEWK, .perTcTpEWK]) (N : Nat) (hN : 1 ≤ N) : ∃ e, c.toAnyBasis b nb N = .error e := by
  unfold Chain.toAnyBasis
  cases c.toSynth b N with
  | error e => exact ⟨e, rfl⟩
  | ok f => exact C172_keep_violated nb hnb none N hN f

/-! ## the hypotheses can be met -/

/-- The parameters of a row of `threeSamples`. -/
noncomputable def threeRow (tc e : ℝ) : Params ℝ :=
  { Params.init (1 : ℝ) 1 .perTcEWK none with items := [(.orb .per 1, { value := 1 }), (.orb .tc 1, { value := tc }), (.orb .e 1, { value := e }), (.orb .w 1, { value := 1 }), (.orb .k 1, { value := 1 })] }

theorem threeRow_ok (j : Fin 3) : IsReportRow threeSamples (Params.init 1 1 .perTcEWK none) j (threeRow (([10, 20, 30] : List ℝ)[j]) (([1 / 2, 2, 2] : List ℝ)[j])) := by
  refine ⟨rfl, rfl, ?_, ?_⟩
  · show [Key.orb .per 1, .orb .tc 1, .orb .e 1, .orb .w 1, .orb .k 1].Nodup
    decide
  · intro x hx m hm
    have : m = 1 := by have := hm.1; have : m ≤ 1 := hm.2; omega
    subst this
    change x ∈ [PName.per, .tc, .e, .w, .k] at hx
    simp only [List.mem_cons, List.not_mem_nil, or_false] at hx
    rcases hx with rfl | rfl | rfl | rfl | rfl <;> rfl

/-- Non-vacuity of C171: the first of the three samples has its time of conjunction in the report, the second one has none. -/
example : ∃ f, reportSamples 0 (Params.init 1 1 .perTcEWK none) .perTcEWK threeSamples = .ok f ∧ f.at (.orb .tc 1) 0 = some (some 10) ∧ f.at (.orb .tc 1) 1 = some none ∧ f.at (.orb .w 1) 1 = some (some 1) := by
  have hm : IsPlanet (Params.init (1 : ℝ) 1 .perTcEWK none) 1 := ⟨le_refl _, le_refl _⟩
  obtain ⟨f, q, hf, hq, h1, _⟩ := C171_rows_partial 0 true _ (init_complete 1) threeSamples 0 _ (threeRow_ok 0)
  obtain ⟨s, s1, _, s2, _, _, s3⟩ := h1 1 hm
  obtain ⟨q1, hq1, _, _, _, _, hs1⟩ := toSynth_values 0 true _ ((threeRow_ok 1).complete (init_complete 1))
  obtain ⟨f', hf', h2, _⟩ := C171_hyperbolic_violated 0 true _ (init_complete 1) threeSamples 1 _ (threeRow_ok 1) q1 hq1 1 hm _ (hs1 1 ⟨le_refl _, le_refl _⟩).e (by
    show (1 : ℝ) < 2
    norm_num)
  rw [hf] at hf'; cases hf'
  obtain ⟨f', q', hf', hq', h3, _⟩ := C171_rows_partial 0 true _ (init_complete 1) threeSamples 1 _ (threeRow_ok 1)
  rw [hf] at hf'; cases hf'
  rw [hq1] at hq'; cases hq'
  obtain ⟨s', t1, _, _, t2, _⟩ := h3 1 hm
  have hw : s'.w = 1 := by
    have := (hs1 1 ⟨le_refl _, le_refl _⟩).w
    rw [t1.w] at this
    exact Option.some.inj this
  obtain ⟨q0, hq0, _, _, _, _, hs0⟩ := toSynth_values 0 true _ ((threeRow_ok 0).complete (init_complete 1))
  rw [hq] at hq0; cases hq0
  have he : s.e = 1 / 2 := by
    have := (hs0 1 ⟨le_refl _, le_refl _⟩).e
    rw [s1.e] at this
    exact Option.some.inj this
  obtain ⟨_, tc, u1, u2, _⟩ := s3 (by rw [he]; norm_num) (by rw [he]; norm_num)
  have htc : (10 : ℝ) = tc := Option.some.inj (u2 (by decide) (by decide))
  exact ⟨f, hf, by rw [u1, htc], h2, by rw [t2, hw]⟩

/-- Non-vacuity of `C171_column_partial`: two samples of the time of conjunction, the other parameters fixed at 1/2. -/
example : ∃ f, reportSamples 0 (Params.init (1 / 2) 1 .perTcEWK none) .perTcEWK ([(.orb .tc 1, fun j => ([10, 20] : List ℝ)[j])] : Chain 2) = .ok f ∧
    f.get? (.orb .tc 1) = some (fun j => some (([10, 20] : List ℝ)[j])) := by
  refine C171_column_partial 0 _ (init_complete (1 / 2)) _ 1 ⟨le_refl _, le_refl _⟩ (by decide) (by decide) _ rfl ?_
  intro j
  have hr : IsReportRow ([(.orb .tc 1, fun j => ([10, 20] : List ℝ)[j])] : Chain 2) (Params.init (1 / 2 : ℝ) 1 .perTcEWK none) j
      { Params.init (1 / 2 : ℝ) 1 .perTcEWK none with items := [(.orb .per 1, { value := 1 / 2 }), (.orb .tc 1, { value := ([10, 20] : List ℝ)[j] }), (.orb .e 1, { value := 1 / 2 }), (.orb .w 1, { value := 1 / 2 }),
        (.orb .k 1, { value := 1 / 2 })] } := by
    refine ⟨rfl, rfl, ?_, ?_⟩
    · show [Key.orb .per 1, .orb .tc 1, .orb .e 1, .orb .w 1, .orb .k 1].Nodup
      decide
    · intro x hx m hm
      have : m = 1 := by have := hm.1; have : m ≤ 1 := hm.2; omega
      subst this
      change x ∈ [PName.per, .tc, .e, .w, .k] at hx
      simp only [List.mem_cons, List.not_mem_nil, or_false] at hx
      rcases hx with rfl | rfl | rfl | rfl | rfl <;> rfl
  obtain ⟨q, hq, _, _, _, _, hs⟩ := toSynth_values 0 true _ (hr.complete (init_complete (1 / 2)))
  exact ⟨_, q, _, hr, hq, (hs 1 ⟨le_refl _, le_refl _⟩).e, by show (0 : ℝ) ≤ 1 / 2; norm_num, by show (1 / 2 : ℝ) ≤ 1; norm_num⟩

/-- Non-vacuity of C172: a row with period, eccentricity and the rest 1/2 in a table made by `from_synth`; and converted samples. -/
example : (∃ g q, Frame.fromSynth (n := 1) (some (BasisName.words .perTcTpEWK)) .perTcSecoswSesinwLogk true 1 [(.orb .per 1, fun _ => some (1 / 2)), (.orb .tp 1, fun _ => some (1 / 2)), (.orb .e 1, fun _ => some (1 / 2)),
      (.orb .w 1, fun _ => some (1 / 2)), (.orb .k 1, fun _ => some (1 / 2))] = .ok g ∧ Radvel.fromSynth 0 .perTcSecoswSesinwLogk true (Params.init (1 / 2 : ℝ) 1 .perTpEWK none) = .ok q ∧
      ∃ v, valueOf q .secosw 1 = some v ∧ g.at (.orb .secosw 1) 0 = some (some v)) ∧
    ∃ f, (exampleSamples (1 / 2)).toSynth .perTcSecoswSesinwK 1 = .ok f ∧ f.fromSynth none .perTcSecoswSesinwK true 1 = .error .attributeError ∧ ∃ e, f.fromSynth none .perTcEWK false 1 = .error e := by
  constructor
  · have hpl : ∀ m, IsPlanet (Params.init (1 / 2 : ℝ) 1 .perTpEWK none) m → m = 1 := fun m hm => by have := hm.1; have : m ≤ 1 := hm.2; omega
    have hc : IsCells (n := 1) [(.orb .per 1, fun _ => some (1 / 2)), (.orb .tp 1, fun _ => some (1 / 2)), (.orb .e 1, fun _ => some (1 / 2)),
        (.orb .w 1, fun _ => some (1 / 2)), (.orb .k 1, fun _ => some (1 / 2))] 0 (Params.init (1 / 2 : ℝ) 1 .perTpEWK none) := by
      have hk : (Params.init (1 / 2 : ℝ) 1 .perTpEWK none).items.keys = [.orb .per 1, .orb .tp 1, .orb .e 1, .orb .w 1, .orb .k 1] := rfl
      refine ⟨⟨by rw [hk]; decide, ?_⟩, rfl, rfl, ?_⟩
      · intro x hx m hm
        rw [hpl m hm, hk]
        change x ∈ [PName.per, .tp, .e, .w, .k] at hx
        revert x
        decide
      · intro x hx m hm
        rw [hpl m hm]
        change x ∈ [PName.per, .tp, .e, .w, .k] at hx
        refine ⟨1 / 2, ?_⟩
        simp only [List.mem_cons, List.not_mem_nil, or_false] at hx
        rcases hx with rfl | rfl | rfl | rfl | rfl <;> exact ⟨rfl, rfl⟩
    obtain ⟨g, q, h1, h2, h3, _⟩ := C172_rows_partial 0 (some (BasisName.words .perTcTpEWK)) .perTcSecoswSesinwLogk (.inr ⟨_, rfl, by decide⟩) _ 0 _ hc (by
      intro m hm s hs
      rw [hpl m hm] at hs
      have e1 : (1 / 2 : ℝ) = s.e := Option.some.inj hs.e
      have e2 : (1 / 2 : ℝ) = s.per := Option.some.inj hs.per
      have e3 : (1 / 2 : ℝ) = s.k := Option.some.inj hs.k
      rw [← e1, ← e2, ← e3]
      norm_num)
    exact ⟨g, q, h1, h2, h3 1 ⟨le_refl _, le_refl _⟩ .secosw (by decide)⟩
  · obtain ⟨h1, h2⟩ := exampleSamples_ok (1 / 2) 2
    obtain ⟨f, _, h3, _⟩ := C122_rows_partial (exampleSamples (1 / 2)) 2 _ h1 h2 0 true
    exact ⟨f, h3, C172_attribute_violated _ _ _ (by decide) _ _ (le_refl _) _ h3, C172_keep_violated _ (by decide) _ _ (le_refl _) _⟩

end Radvel
