import Verif.Lemmas.Chains
import Verif.Spec.Chains
import Verif.Props.Basis

/-!
# C122: samples are converted row by row
-/

namespace Radvel
open Real

theorem synthReads_words (b : BasisName) : ∀ x ∈ synthReads b, x ∈ b.words := by cases b <;> decide

theorem synthCell_congr (b : BasisName) (v v' : PName → ℝ) (h : ∀ x ∈ b.words, v x = v' x) : synthCell b v = synthCell b v' := by
  cases b <;> simp only [BasisName.words, List.mem_cons, List.not_mem_nil, or_false, forall_eq_or_imp, forall_eq] at h <;>
    simp only [synthCell, h]

theorem cell_of_sample {n : Nat} {c : Chain n} {j : Fin n} {p : Params ℝ} (hs : IsSample c j p) {m : Nat} (hm : IsPlanet p m) :
    ∀ x ∈ p.basis.words, c.cell m j x = valsOf p m x := by
  intro x hx
  obtain ⟨col, h1, h2⟩ := hs x hx m hm
  simp [Chain.cell, h1, valsOf, h2]

/-- The conversion of a table, seen at one row. -/
theorem toSynth_at {n : Nat} (c : Chain n) (j : Fin n) (p : Params ℝ) (hs : IsSample c j p) : ∃ f, c.toSynth p.basis p.numPlanets = .ok f ∧
    (∀ m, IsPlanet p m → ∀ x ∈ synthNames, f.at (.orb x m) j = some ((synthCell p.basis (valsOf p m)).get x)) ∧
    ∀ k, (∀ m, IsPlanet p m → ∀ x ∈ synthNames, k ≠ .orb x m) → f.at k j = (c.get? k).map (fun col => some (col j)) := by
  obtain ⟨f, hf⟩ := c.toSynth_ok p.basis p.numPlanets (by
    intro i hi x hx
    obtain ⟨col, h1, _⟩ := hs x (synthReads_words _ x hx) (i + 1) ⟨by omega, by omega⟩
    exact Dict.mem_keys_of_get? _ h1)
  obtain ⟨_, h2, h3⟩ := c.toSynth_spec _ _ _ hf
  refine ⟨f, hf, ?_, ?_⟩
  · intro m hm x hx
    have := h2 (m - 1) (by have := hm.1; have := hm.2; omega) x hx
    rw [Nat.sub_add_cancel hm.1] at this
    simp only [Frame.at, this, Option.map_some]
    rw [synthCell_congr p.basis _ _ (cell_of_sample hs hm)]
  · intro k hk
    rw [Frame.at, h3 k (fun i hi x hx => hk (i + 1) ⟨by omega, by omega⟩ x hx), Option.map_map]
    rfl

theorem synthCell_vals (b : BasisName) (v : Vals) : (synthCell b v).per = (synthOfVals b v).per ∧ (synthCell b v).e = (synthOfVals b v).e ∧
    (synthCell b v).w = (synthOfVals b v).w ∧ (synthCell b v).k = (synthOfVals b v).k ∧
    (-1 < (synthOfVals b v).e → (synthOfVals b v).e ≤ 1 → (synthCell b v).tp = some (synthOfVals b v).tp) ∧
    (1 < (synthOfVals b v).e → PName.tp ∉ b.words → (synthCell b v).tp = none ∧ (synthOfVals b v).tp = v .tc) := by
  obtain ⟨s, h0, h1, h2, h3, h4, h5, h6⟩ := synthCell_eq b v
  rw [synthOf_ok b _ v (fun _ _ => rfl)] at h0
  cases h0
  refine ⟨h1, h2, h3, h4, h5, fun h7 h8 => h6 h7 ?_⟩
  revert h8
  cases b <;> decide

/-- C122: converting a table of samples converts every row like a set of parameters: for every row `j` and the parameters `p` of that row, the cells of the converted table are the values of the converted
parameters, for every planet; columns of other parameters are kept. Missing: the time of periastron of rows with eccentricity above 1, see `C122_hyperbolic_violated`. -/
theorem C122_rows_partial {n : Nat} (c : Chain n) (j : Fin n) (p : Params ℝ) (hp : Complete p) (hs : IsSample c j p) (dflt : ℝ) (noVary : Bool) :
    ∃ f q, c.toSynth p.basis p.numPlanets = .ok f ∧ toSynth dflt p.basis noVary p = .ok q ∧
      (∀ m, IsPlanet p m → ∃ s, SynthPlanet q m s ∧ f.at (.orb .per m) j = some (some s.per) ∧ f.at (.orb .e m) j = some (some s.e) ∧
        f.at (.orb .w m) j = some (some s.w) ∧ f.at (.orb .k m) j = some (some s.k) ∧ (0 ≤ s.e → s.e ≤ 1 → f.at (.orb .tp m) j = some (some s.tp))) ∧
      ∀ k, (∀ m, IsPlanet p m → ∀ x ∈ BasisName.words .perTpEWK, k ≠ .orb x m) → f.at k j = (c.get? k).map (fun col => some (col j)) := by
  obtain ⟨f, hf, h1, h2⟩ := toSynth_at c j p hs
  obtain ⟨q, hq, _, _, _, _, h3⟩ := toSynth_values dflt noVary p hp
  refine ⟨f, q, hf, hq, ?_, h2⟩
  intro m hm
  obtain ⟨e1, e2, e3, e4, e5, _⟩ := synthCell_vals p.basis (valsOf p m)
  refine ⟨_, h3 m hm, ?_, ?_, ?_, ?_, ?_⟩
  · rw [h1 m hm _ (by decide), ← e1]; rfl
  · rw [h1 m hm _ (by decide), ← e2]; rfl
  · rw [h1 m hm _ (by decide), ← e3]; rfl
  · rw [h1 m hm _ (by decide), ← e4]; rfl
  · intro h0 h4
    rw [h1 m hm _ (by decide)]
    exact congrArg some (e5 (by linarith) h4)

/-- C122 in full is false: in every basis with a time of conjunction, a sample with eccentricity above 1 has the time of conjunction as time of periastron if it is converted as a set of parameters, and nan
if it is converted in a table. -/
theorem C122_hyperbolic_violated {n : Nat} (c : Chain n) (j : Fin n) (p : Params ℝ) (hp : Complete p) (hs : IsSample c j p) (hb : PName.tp ∉ p.basis.words) (dflt : ℝ) (noVary : Bool)
    (m : Nat) (hm : IsPlanet p m) (q : Params ℝ) (hq : toSynth dflt p.basis noVary p = .ok q) (e : ℝ) (he : valueOf q .e m = some e) (h1 : 1 < e) :
    ∃ f, c.toSynth p.basis p.numPlanets = .ok f ∧ f.at (.orb .tp m) j = some none ∧ valueOf q .tp m = valueOf p .tc m ∧ valueOf p .tc m ≠ none := by
  obtain ⟨f, hf, h2, _⟩ := toSynth_at c j p hs
  obtain ⟨q', hq', _, _, _, _, h3⟩ := toSynth_values dflt noVary p hp
  rw [hq] at hq'; cases hq'
  obtain ⟨_, _, _, _, _, e6⟩ := synthCell_vals p.basis (valsOf p m)
  have h4 := h3 m hm
  have h5 : (synthOfVals p.basis (valsOf p m)).e = e := by rw [h4.e] at he; exact Option.some.inj he
  obtain ⟨e7, e8⟩ := e6 (by rw [h5]; exact h1) hb
  have htc : PName.tc ∈ p.basis.words := by
    revert hb
    cases p.basis <;> decide
  obtain ⟨col, _, h6⟩ := hs .tc htc m hm
  refine ⟨f, hf, ?_, ?_, by rw [h6]; simp⟩
  · rw [h2 m hm _ (by decide)]
    exact congrArg some e7
  · rw [h4.tp, e8, h6]
    simp [valsOf, h6]

/-- Three equal samples of one planet. -/
noncomputable def exampleSamples (v : ℝ) : Chain 3 := [(.orb .per 1, fun _ => v), (.orb .tc 1, fun _ => v), (.orb .secosw 1, fun _ => v), (.orb .sesinw 1, fun _ => v), (.orb .k 1, fun _ => v)]

theorem exampleSamples_ok (v : ℝ) (j : Fin 3) : Complete (Params.init v 1 .perTcSecoswSesinwK none) ∧ IsSample (exampleSamples v) j (Params.init v 1 .perTcSecoswSesinwK none) := by
  have hk : (Params.init v 1 .perTcSecoswSesinwK none).items.keys = [.orb .per 1, .orb .tc 1, .orb .secosw 1, .orb .sesinw 1, .orb .k 1] := rfl
  refine ⟨⟨by rw [hk]; decide, ?_⟩, ?_⟩
  · intro x hx m hm
    have : m = 1 := by have := hm.1; have : m ≤ 1 := hm.2; omega
    subst this
    rw [hk]
    change x ∈ [PName.per, .tc, .secosw, .sesinw, .k] at hx
    revert x
    decide
  · intro x hx m hm
    have : m = 1 := by have := hm.1; have : m ≤ 1 := hm.2; omega
    subst this
    change x ∈ [PName.per, .tc, .secosw, .sesinw, .k] at hx
    simp only [List.mem_cons, List.not_mem_nil, or_false] at hx
    rcases hx with rfl | rfl | rfl | rfl | rfl <;> exact ⟨fun _ => v, rfl, rfl⟩

theorem synthReads_iff (b : BasisName) (x : PName) : x ∈ synthReads b ↔ x ∈ b.words ∧ ¬ (b = .perTcTpEWK ∧ x = .tc) := by
  cases b <;> cases x <;> decide

theorem Chain.toSynth_err {n : Nat} (c : Chain n) (b : BasisName) (N : Nat) (e : PyErr) (h : c.toSynth b N = .error e) : e = .keyError := by
  unfold Chain.toSynth at h
  generalize c.toFrame = o at h
  generalize List.range N = l at h
  induction l generalizing o with
  | nil => cases h
  | cons i t ih =>
    rw [List.foldlM_cons] at h
    rcases h1 : c.synthPlanet b o i with e' | o'
    · rw [h1] at h
      cases Except.error.inj h
      unfold Chain.synthPlanet at h1
      split_ifs at h1
      exact (Except.error.inj h1).symm
    · rw [h1] at h
      exact ih o' h

/-- C122: a table is converted exactly when it has, for every planet, all columns of the basis (of the time of conjunction beside a time of periastron no use is made); otherwise `KeyError`. -/
theorem C122_columns {n : Nat} (c : Chain n) (b : BasisName) (N : Nat) :
    ((∃ f, c.toSynth b N = .ok f) ↔ ∀ m, 1 ≤ m → m ≤ N → ∀ x ∈ b.words, ¬ (b = .perTcTpEWK ∧ x = .tc) → Key.orb x m ∈ c.keys) ∧
    ((¬ ∃ f, c.toSynth b N = .ok f) → c.toSynth b N = .error .keyError) := by
  refine ⟨⟨?_, ?_⟩, ?_⟩
  · rintro ⟨f, hf⟩ m h1 h2 x hx hx'
    have := (c.toSynth_spec b N f hf).1 (m - 1) (by omega) x ((synthReads_iff b x).2 ⟨hx, hx'⟩)
    rwa [show m - 1 + 1 = m by omega] at this
  · intro h
    exact c.toSynth_ok b N (fun i hi x hx => h (i + 1) (by omega) (by omega) x ((synthReads_iff b x).1 hx).1 ((synthReads_iff b x).1 hx).2)
  · intro h
    rcases hr : c.toSynth b N with e | f
    · rw [c.toSynth_err b N e hr]
    · exact absurd ⟨f, hr⟩ h

/-- Non-vacuity: a table without amplitudes is refused. -/
example : Chain.toSynth (n := 1) [(.orb .per 1, fun _ => 1), (.orb .tc 1, fun _ => 1), (.orb .e 1, fun _ => 0), (.orb .w 1, fun _ => 0)] .perTcEWK 1 = .error .keyError := by
  refine (C122_columns _ _ _).2 ?_
  rw [(C122_columns _ _ _).1]
  intro h
  have := h 1 (le_refl _) (le_refl _) .k (by decide) (by decide)
  revert this
  simp [Dict.keys]

/-- Non-vacuity of C122: samples with eccentricity 1/2, and with eccentricity 8. -/
example : (∃ f q s, (exampleSamples (1 / 2)).toSynth .perTcSecoswSesinwK 1 = .ok f ∧ toSynth 0 .perTcSecoswSesinwK true (Params.init (1 / 2 : ℝ) 1 .perTcSecoswSesinwK none) = .ok q ∧ SynthPlanet q 1 s ∧
      s.e = 1 / 2 ∧ f.at (.orb .tp 1) 2 = some (some s.tp)) ∧
    ∃ f, (exampleSamples 2).toSynth .perTcSecoswSesinwK 1 = .ok f ∧ f.at (.orb .tp 1) 2 = some none := by
  constructor
  · obtain ⟨h1, h2⟩ := exampleSamples_ok (1 / 2) 2
    obtain ⟨f, q, h3, h4, h5, _⟩ := C122_rows_partial (exampleSamples (1 / 2)) 2 _ h1 h2 0 true
    obtain ⟨s, h6, _, h7, _, _, h8⟩ := h5 1 ⟨le_refl _, le_refl _⟩
    have : s.e = 1 / 2 := by
      obtain ⟨f', h9, h10, _⟩ := toSynth_at _ _ _ h2
      rw [h3] at h9; cases h9
      have := h10 1 ⟨le_refl _, le_refl _⟩ .e (by decide)
      rw [h7] at this
      have := Option.some.inj (Option.some.inj this)
      rw [this]
      change (1 / 2 : ℝ) ^ 2 + (1 / 2) ^ 2 = 1 / 2
      norm_num
    exact ⟨f, q, s, h3, h4, h6, this, h8 (by rw [this]; norm_num) (by rw [this]; norm_num)⟩
  · obtain ⟨h1, h2⟩ := exampleSamples_ok 2 2
    obtain ⟨q, hq, _, _, _, _, h3⟩ := toSynth_values 0 true _ h1
    obtain ⟨f, hf, h4, _⟩ := C122_hyperbolic_violated (exampleSamples 2) 2 _ h1 h2 (by decide) 0 true 1 ⟨le_refl _, le_refl _⟩ q hq _ (h3 1 ⟨le_refl _, le_refl _⟩).e (by
      change 1 < (2 : ℝ) ^ 2 + 2 ^ 2
      norm_num)
    exact ⟨f, hf, h4⟩

end Radvel
