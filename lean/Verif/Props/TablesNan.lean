import Verif.Props.Tables

/-!
# C172: tables with times of conjunction, and cells without a value
-/

namespace Radvel
open Real

/-- The value of a name for an orbit with a time of conjunction `tc`. -/
noncomputable def orbitValue (s : Synth) (tc : ℝ) : PName → ℝ
  | .per => s.per
  | .logper => log s.per
  | .tc => tc
  | .tp => s.tp
  | .e => s.e
  | .w => s.w
  | .se => √s.e
  | .secosw => √s.e * cos s.w
  | .sesinw => √s.e * sin s.w
  | .ecosw => s.e * cos s.w
  | .esinw => s.e * sin s.w
  | .k => s.k
  | .logk => log s.k

/-- The cells of row `j` with the time of periastron computed from that of conjunction. -/
noncomputable def tcRow {n : Nat} (f : Frame n) (m : Nat) (j : Fin n) (x : PName) : Option ℝ :=
  if x = .tp then timetransCell? (f.cell m j .tc) (f.cell m j .per) (f.cell m j .e) (f.cell m j .w) else f.cell m j x

theorem fromPlanet_tc {n : Nat} (l : List PName) (hl : PName.tp ∉ l) (nb : BasisName) (hn : looksAtNames nb = true) (f : Frame n) (i : Nat)
    (hcols : ∀ x ∈ [PName.per, .tc, .e, .w, .k], Key.orb x (i + 1) ∈ f.keys) (out : Frame n) :
    f.fromPlanet (some l) nb true out i = .ok (setColumns (i + 1) (tcRow f (i + 1)) ((.tp, fun v => v .tp) :: fromFormulas nb) out) := by
  have h : ∀ x ∈ [PName.per, .tc, .e, .w, .k], f.has (.orb x (i + 1)) = true := fun x hx => (Dict.has_iff _ _).2 (hcols x hx)
  unfold Frame.fromPlanet
  simp only [h .per (by decide), h .tc (by decide), h .e (by decide), h .w (by decide), h .k (by decide), List.all_cons, List.all_nil, Bool.and_self, if_true, dropColumns, if_neg hl]
  rw [if_neg (by rintro rfl; cases hn), if_neg (by rw [hn]; decide)]
  rfl

theorem Frame.fromSynth_tc {n : Nat} (l : List PName) (hl : PName.tp ∉ l) (nb : BasisName) (hn : looksAtNames nb = true) (f : Frame n) : ∀ N,
    (∀ i < N, ∀ x ∈ [PName.per, .tc, .e, .w, .k], Key.orb x (i + 1) ∈ f.keys) → ∃ g, f.fromSynth (some l) nb true N = .ok g ∧
      (∀ i < N, ∀ x h, (x, h) ∈ (PName.tp, fun v : PName → Option ℝ => v .tp) :: fromFormulas nb → g.get? (.orb x (i + 1)) = some (fun j => h (tcRow f (i + 1) j))) ∧
      ∀ k, (∀ i < N, ∀ x ∈ PName.tp :: newNames nb, k ≠ .orb x (i + 1)) → g.get? k = f.get? k := by
  intro N
  induction N with
  | zero => intro _; exact ⟨f, rfl, by simp, fun _ _ => rfl⟩
  | succ N ih =>
    intro h
    obtain ⟨g, hg, h1, h2⟩ := ih (fun i hi => h i (by omega))
    have hs := fromPlanet_tc l hl nb hn f N (h N (Nat.lt_succ_self _)) g
    refine ⟨setColumns (N + 1) (tcRow f (N + 1)) ((.tp, fun v => v .tp) :: fromFormulas nb) g, ?_, ?_, ?_⟩
    · unfold Frame.fromSynth at hg ⊢
      rw [List.range_succ, List.foldlM_append, hg]
      change (f.fromPlanet (some l) nb true g N >>= pure) = _
      rw [hs]
      rfl
    · intro i hi x hh hx
      rcases Nat.lt_succ_iff_lt_or_eq.1 hi with hi | rfl
      · rw [setColumns_miss _ _ _ _ _ (by intro y _ he; injection he; omega)]
        exact h1 i hi x hh hx
      · refine setColumns_hit _ _ _ ?_ x hh hx _
        rw [List.map_cons, fromFormulas_names, List.nodup_cons]
        exact ⟨by revert hn; cases nb <;> decide, newNames_nodup nb⟩
    · intro k hk
      rw [setColumns_miss _ _ _ _ _ (by
        intro y hy
        refine hk N (Nat.lt_succ_self _) y.1 ?_
        rw [← fromFormulas_names]
        exact List.mem_map_of_mem (f := Prod.fst) hy)]
      exact h2 k (fun i hi => hk i (by omega))

/-- C172, tables with times of conjunction: if the table says (by its attribute) that its basis has no time of periastron, every row gets the time of periastron that belongs to its time of conjunction, and the columns of the
new basis are those of this orbit. Missing: eccentricities above 1. -/
theorem C172_conjunction_partial {n : Nat} (l : List PName) (hl : PName.tp ∉ l) (nb : BasisName) (hn : nb ∉ [BasisName.perTpEWK, .perTcEWK, .perTcTpEWK, .perTcSeWK]) (f : Frame n) (N : Nat)
    (hcols : ∀ m, 1 ≤ m → m ≤ N → ∀ x ∈ [PName.per, .tc, .e, .w, .k], Key.orb x m ∈ f.keys) :
    ∃ g, f.fromSynth (some l) nb true N = .ok g ∧
      (∀ m, 1 ≤ m → m ≤ N → ∀ j per tc e w k, f.at (.orb .per m) j = some (some per) → f.at (.orb .tc m) j = some (some tc) → f.at (.orb .e m) j = some (some e) → f.at (.orb .w m) j = some (some w) →
        f.at (.orb .k m) j = some (some k) → 0 ≤ e → e ≤ 1 → 0 < per → 0 < k →
        ∃ tp, g.at (.orb .tp m) j = some (some tp) ∧ (∀ x ∈ nb.words, g.at (.orb x m) j = some (some (orbitValue ⟨per, tp, e, w, k⟩ tc x))) ∧
          (e < 1 → cos ((π / 2 - w) / 2) ≠ 0 → IsConjunction ⟨per, tp, e, w, k⟩ tc)) ∧
      ∀ key, (∀ m, 1 ≤ m → m ≤ N → ∀ x ∈ PName.tp :: .tc :: nb.words, key ≠ .orb x m) → ∀ j, g.at key j = f.at key j := by
  have hn' : looksAtNames nb = true := by revert hn; cases nb <;> decide
  obtain ⟨g, hg, g1, g2⟩ := Frame.fromSynth_tc l hl nb hn' f N (fun i hi => hcols (i + 1) (by omega) (by omega))
  refine ⟨g, hg, ?_, ?_⟩
  · intro m h1 hN j per tc e w k c1 c2 c3 c4 c5 he0 he1 hP hK
    have cell : ∀ x v, f.at (.orb x m) j = some (some v) → f.cell m j x = some v := by
      intro x v hx
      unfold Frame.at at hx
      unfold Frame.cell
      obtain ⟨col, b1, b2⟩ := Option.map_eq_some_iff.1 hx
      rw [b1]
      exact b2
    have htp : tcRow f m j .tp = some (timetransToTimeperi tc per e w) := by
      unfold tcRow
      rw [if_pos rfl, cell _ _ c1, cell _ _ c2, cell _ _ c3, cell _ _ c4]
      exact timetransCell_eq tc per e w (by linarith) he1
    have hrow : ∀ x ∈ synthNames, tcRow f m j x = some (valOf ⟨per, timetransToTimeperi tc per e w, e, w, k⟩ x) := by
      intro x hx
      by_cases h : x = .tp
      · subst h; exact htp
      · have hc : tcRow f m j x = f.cell m j x := by unfold tcRow; rw [if_neg h]
        rw [hc]
        revert hx h
        cases x <;> first
          | (intro hx _; exact absurd hx (by decide))
          | (intro _ h; exact absurd rfl h)
          | (intro _ _; exact cell _ _ c1)
          | (intro _ _; exact cell _ _ c3)
          | (intro _ _; exact cell _ _ c4)
          | (intro _ _; exact cell _ _ c5)
    have hval := fromFormulas_val nb (tcRow f m j) ⟨per, timetransToTimeperi tc per e w, e, w, k⟩ hrow he0 he1 hP hK
    have hov : ∀ x, valOf ⟨per, timetransToTimeperi tc per e w, e, w, k⟩ x = orbitValue ⟨per, timetransToTimeperi tc per e w, e, w, k⟩ tc x := by
      intro x
      cases x <;> first | rfl | exact timeperi_timetrans tc per e w
    have hset : ∀ x h, (x, h) ∈ (PName.tp, fun v : PName → Option ℝ => v .tp) :: fromFormulas nb → g.at (.orb x m) j = some (h (tcRow f m j)) := by
      intro x h hx
      have := g1 (m - 1) (by omega) x h hx
      rw [Nat.sub_add_cancel h1] at this
      unfold Frame.at
      rw [this]
      rfl
    refine ⟨timetransToTimeperi tc per e w, ?_, ?_, ?_⟩
    · rw [hset .tp _ (List.mem_cons_self ..), htp]
    · intro x hx
      by_cases hp : x = .tp
      · subst hp
        rw [hset .tp _ (List.mem_cons_self ..), htp]
        rfl
      by_cases hnew : x ∈ newNames nb
      · rw [← fromFormulas_names] at hnew
        obtain ⟨⟨y, h⟩, hy, rfl⟩ := List.mem_map.1 hnew
        rw [hset y h (List.mem_cons_of_mem _ hy), hval y h hy, hov]
      · have hk : g.at (.orb x m) j = f.at (.orb x m) j := by
          unfold Frame.at
          rw [g2 _ (by
            intro i _ y hy he
            injection he with he
            subst he
            rcases List.mem_cons.1 hy with h | h
            · exact hp h
            · exact hnew h)]
        rw [hk]
        revert hx hnew hp
        cases nb <;> cases x <;> first
          | (intro hx; exact absurd hx (by decide))
          | (intro _ h; exact absurd rfl h)
          | (intro _ _ h; exact absurd (by decide) h)
          | (intro _ _ _; exact c1)
          | (intro _ _ _; exact c3)
          | (intro _ _ _; exact c4)
          | (intro _ _ _; exact c5)
    · intro he hw
      have := isConjunction_tc ⟨per, timetransToTimeperi tc per e w, e, w, k⟩ he0 he (ne_of_gt hP) hw
      rwa [show timeperiToTimetrans (timetransToTimeperi tc per e w) per e w false = tc from timeperi_timetrans tc per e w] at this
  · intro key hk j
    unfold Frame.at
    rw [g2 key (fun i hi x hx => hk (i + 1) (by omega) (by omega) x (by
      rcases List.mem_cons.1 hx with rfl | hx
      · exact List.mem_cons_self ..
      · refine List.mem_cons_of_mem _ ?_
        revert hx
        cases nb <;> cases x <;> decide))]

/-- C172, cells without a value: in a row with a negative eccentricity the columns with its root are nan, and the logarithms of a negative amplitude or period are nan; no number is made up. -/
theorem C172_undefined {n : Nat} (attr : Option (List PName)) (nb : BasisName) (ha : nb ∈ [BasisName.perTpEWK, .perTcEWK, .perTcTpEWK, .perTcSeWK] ∨ ∃ l, attr = some l ∧ PName.tp ∈ l) (f : Frame n) (N : Nat)
    (hcols : ∀ m, 1 ≤ m → m ≤ N → ∀ x ∈ [PName.per, .tp, .e, .w, .k], Key.orb x m ∈ f.keys) :
    ∃ g, f.fromSynth attr nb true N = .ok g ∧ ∀ m, 1 ≤ m → m ≤ N → ∀ j v, v < 0 →
      (f.at (.orb .e m) j = some (some v) → ∀ x ∈ nb.words, x ∈ [PName.se, .secosw, .sesinw] → g.at (.orb x m) j = some none) ∧
      (f.at (.orb .k m) j = some (some v) → PName.logk ∈ nb.words → g.at (.orb .logk m) j = some none) ∧
      (f.at (.orb .per m) j = some (some v) → PName.logper ∈ nb.words → g.at (.orb .logper m) j = some none) := by
  obtain ⟨g, hg, g1, _⟩ := Frame.fromSynth_spec attr nb f (by
    rcases ha with ha | ha
    · refine .inl ?_
      revert ha
      cases nb <;> decide
    · exact .inr ha) N (fun i hi x hx => hcols (i + 1) (by omega) (by omega) x hx)
  refine ⟨g, hg, ?_⟩
  intro m h1 hN j v hv
  have cell : ∀ x, f.at (.orb x m) j = some (some v) → f.cell m j x = some v := by
    intro x hx
    unfold Frame.at at hx
    unfold Frame.cell
    obtain ⟨col, b1, b2⟩ := Option.map_eq_some_iff.1 hx
    rw [b1]
    exact b2
  have hset : ∀ x h, (x, h) ∈ fromFormulas nb → g.at (.orb x m) j = some (h (f.cell m j)) := by
    intro x h hx
    have := g1 (m - 1) (by omega) x h hx
    rw [Nat.sub_add_cancel h1] at this
    unfold Frame.at
    rw [this]
    rfl
  have hsq : sqrtCell (some v) = none := by simp [sqrtCell, hv]
  have hlog : logCell (some v) = none := by simp [logCell, hv.le]
  refine ⟨fun hc x hx hs => ?_, fun hc hx => ?_, fun hc hx => ?_⟩
  · have he := cell .e hc
    suffices ∃ h, (x, h) ∈ fromFormulas nb ∧ h (f.cell m j) = none by
      obtain ⟨h, h2, h3⟩ := this
      rw [hset x h h2, h3]
    simp only [List.mem_cons, List.not_mem_nil, or_false] at hs
    rcases hs with rfl | rfl | rfl
    · refine ⟨fun v => sqrtCell (v .e), ?_, by simp [he, hsq]⟩
      revert hx
      cases nb <;> first | (intro hx; exact absurd hx (by decide)) | (intro _; simp [fromFormulas])
    · refine ⟨fun v => mulCell (sqrtCell (v .e)) cos (v .w), ?_, by simp [he, hsq, mulCell]⟩
      revert hx
      cases nb <;> first | (intro hx; exact absurd hx (by decide)) | (intro _; simp [fromFormulas])
    · refine ⟨fun v => mulCell (sqrtCell (v .e)) sin (v .w), ?_, by simp [he, hsq, mulCell]⟩
      revert hx
      cases nb <;> first | (intro hx; exact absurd hx (by decide)) | (intro _; simp [fromFormulas])
  · have hk := cell .k hc
    rw [hset .logk (fun v => logCell (v .k)) (by revert hx; cases nb <;> first | (intro hx; exact absurd hx (by decide)) | (intro _; simp [fromFormulas]))]
    simp [hk, hlog]
  · have hk := cell .per hc
    rw [hset .logper (fun v => logCell (v .per)) (by revert hx; cases nb <;> first | (intro hx; exact absurd hx (by decide)) | (intro _; simp [fromFormulas]))]
    simp [hk, hlog]

/-- One row with a time of conjunction, made for the examples. -/
noncomputable def tcTable (e : ℝ) : Frame 1 :=
  [(.orb .per 1, fun _ => some 3), (.orb .tc 1, fun _ => some 10), (.orb .e 1, fun _ => some e), (.orb .w 1, fun _ => some 0), (.orb .k 1, fun _ => some 2)]

example : ∃ g tp, (tcTable (1 / 4)).fromSynth (some (BasisName.words .perTcEWK)) .perTcSecoswSesinwK true 1 = .ok g ∧ g.at (.orb .tp 1) 0 = some (some tp) ∧
    g.at (.orb .tc 1) 0 = some (some 10) ∧ IsConjunction ⟨3, tp, 1 / 4, 0, 2⟩ 10 := by
  obtain ⟨g, hg, h, _⟩ := C172_conjunction_partial (BasisName.words .perTcEWK) (by decide) .perTcSecoswSesinwK (by decide) (tcTable (1 / 4)) 1 (by
    intro m h1 h2
    obtain rfl : m = 1 := by omega
    change ∀ x ∈ [PName.per, .tc, .e, .w, .k], Key.orb x 1 ∈ [Key.orb .per 1, .orb .tc 1, .orb .e 1, .orb .w 1, .orb .k 1]
    decide)
  obtain ⟨tp, h1, h2, h3⟩ := h 1 (le_refl _) (le_refl _) 0 3 10 (1 / 4) 0 2 rfl rfl rfl rfl rfl (by norm_num) (by norm_num) (by norm_num) (by norm_num)
  refine ⟨g, tp, hg, h1, h2 .tc (by decide), h3 (by norm_num) ?_⟩
  rw [show (π / 2 - 0) / 2 = π / 4 by ring, cos_pi_div_four]
  positivity

example : ∃ g, Frame.fromSynth (n := 1) (some (BasisName.words .perTpEWK)) .perTcSecoswSesinwLogk true 1 [(.orb .per 1, fun _ => some 3), (.orb .tp 1, fun _ => some 10), (.orb .e 1, fun _ => some (-1)),
    (.orb .w 1, fun _ => some 0), (.orb .k 1, fun _ => some (-1))] = .ok g ∧ g.at (.orb .secosw 1) 0 = some none ∧ g.at (.orb .logk 1) 0 = some none := by
  obtain ⟨g, hg, h⟩ := C172_undefined (n := 1) (some (BasisName.words .perTpEWK)) .perTcSecoswSesinwLogk (.inr ⟨_, rfl, by decide⟩) [(.orb .per 1, fun _ => some 3), (.orb .tp 1, fun _ => some 10),
    (.orb .e 1, fun _ => some (-1)), (.orb .w 1, fun _ => some 0), (.orb .k 1, fun _ => some (-1))] 1 (by
      intro m h1 h2
      obtain rfl : m = 1 := by omega
      change ∀ x ∈ [PName.per, .tp, .e, .w, .k], Key.orb x 1 ∈ [Key.orb .per 1, .orb .tp 1, .orb .e 1, .orb .w 1, .orb .k 1]
      decide)
  obtain ⟨h1, h2, _⟩ := h 1 (le_refl _) (le_refl _) 0 (-1) (by norm_num)
  exact ⟨g, hg, h1 rfl _ (by decide) (by decide), h2 rfl (by decide)⟩

end Radvel
