import Verif.Lemmas.Reindex
import Verif.Props.Chains
import Verif.Props.Masses
import Verif.Props.ReportDerived
import Mathlib.Analysis.Real.Pi.Bounds

/-!
# C123-C127: derived parameters
-/

namespace Radvel
open Real

theorem get?_addFixed {n : Nat} (items : Dict Key (Parameter ℝ)) (hn : items.keys.Nodup) (k : Key) : ∀ c : Chain n,
    (addFixed c items).get? k = match items.get? k with
      | some q => if q.vary = .yes then c.get? k else some (fun _ => q.value)
      | none => c.get? k := by
  induction items with
  | nil => intro c; rfl
  | cons x t ih =>
    intro c
    obtain ⟨k', q⟩ := x
    simp only [Dict.keys, List.map_cons, List.nodup_cons] at hn
    change (addFixed (if q.vary = .yes then c else c.set k' (fun _ => q.value)) t).get? k = _
    rw [ih hn.2]
    have ht : k = k' → Dict.get? t k = none := by
      rintro rfl
      exact (Dict.get?_eq_none_iff _ _).2 hn.1
    by_cases hk : k' = k
    · subst hk
      rw [ht rfl]
      simp only [Dict.get?, if_true]
      by_cases hv : q.vary = .yes
      · simp [hv]
      · simp [hv, Dict.get?_set_self]
    · have : Dict.get? ((k', q) :: t) k = Dict.get? t k := by simp [Dict.get?, hk]
      rw [this]
      have hc : (if q.vary = .yes then c else c.set k' (fun _ => q.value)).get? k = c.get? k := by
        by_cases hv : q.vary = .yes
        · simp [hv]
        · simp only [hv, if_false]; exact Dict.get?_set_ne _ _ hk
      rw [hc]

theorem sample_of_row {n : Nat} {chains : Chain n} {post : Params ℝ} (hn : post.items.keys.Nodup) {j : Fin n} {p : Params ℝ} (h : IsRow chains post j p) :
    IsSample (addFixed chains post.items) j p ∧ Complete p := by
  have hpl : ∀ m, IsPlanet p m → IsPlanet post m := by
    intro m hm; exact ⟨hm.1, h.planets ▸ hm.2⟩
  constructor
  · intro x hx m hm
    rw [h.basis] at hx
    obtain ⟨q, h1, h2, h3⟩ := h.vals x hx m (hpl m hm)
    rw [get?_addFixed _ hn, h1]
    by_cases hv : q.vary = .yes
    · obtain ⟨col, h4, h5⟩ := h3 hv
      exact ⟨col, by simp [hv, h4], h5⟩
    · exact ⟨fun _ => q.value, by simp [hv], h2 hv⟩
  · refine ⟨h.nodup, ?_⟩
    intro x hx m hm
    rw [h.basis] at hx
    obtain ⟨q, h1, h2, h3⟩ := h.vals x hx m (hpl m hm)
    have : valueOf p x m ≠ none := by
      by_cases hv : q.vary = .yes
      · obtain ⟨col, h4, h5⟩ := h3 hv
        rw [h5]; simp
      · rw [h2 hv]; simp
    unfold valueOf at this
    rcases hq : p.items.get? (.orb x m) with _ | q
    · rw [hq] at this; exact absurd rfl this
    · exact Dict.mem_keys_of_get? _ hq

theorem foldMass_eq (m : ℝ) : foldMass m = |m| := by
  unfold foldMass
  split_ifs with h
  · rfl
  · exact (abs_of_pos (not_le.1 h)).symm

/-- The columns that `derive` reads are the orbits of the rows. -/
theorem getParam_rows {n : Nat} {chains : Chain n} {post : Params ℝ} (hn : post.items.keys.Nodup) {i : Nat} (hi : IsPlanet post i) {s : Fin n → Synth} (hs : RowOrbits chains post i s)
    {f : Frame n} (hf : (addFixed chains post.items).toSynth post.basis post.numPlanets = .ok f) (P : DeriveFile) :
    getParam f P i .per = .ok (fun j => (s j).per) ∧ getParam f P i .k = .ok (fun j => (s j).k) ∧ getParam f P i .e = .ok (fun j => (s j).e) := by
  obtain ⟨_, h2, _⟩ := Chain.toSynth_spec _ _ _ _ hf
  have hcol : ∀ x ∈ synthNames, f.get? (.orb x i) = some (fun j => (synthCell post.basis ((addFixed chains post.items).cell i j)).get x) := by
    intro x hx
    have := h2 (i - 1) (by have := hi.1; have := hi.2; omega) x hx
    rwa [Nat.sub_add_cancel hi.1] at this
  have hcell : ∀ j, (synthCell post.basis ((addFixed chains post.items).cell i j)).per = (s j).per ∧ (synthCell post.basis ((addFixed chains post.items).cell i j)).k = (s j).k ∧
      (synthCell post.basis ((addFixed chains post.items).cell i j)).e = (s j).e := by
    intro j
    obtain ⟨p, q, dflt, h3, h4, h5⟩ := hs j
    obtain ⟨h6, h7⟩ := sample_of_row hn h3
    have hip : IsPlanet p i := ⟨hi.1, h3.planets.symm ▸ hi.2⟩
    obtain ⟨q', h8, _, _, _, _, h9⟩ := toSynth_values dflt true p h7
    rw [h4] at h8; cases h8
    have h10 := h9 i hip
    have he : synthCell post.basis ((addFixed chains post.items).cell i j) = synthCell p.basis (valsOf p i) := by
      rw [h3.basis]
      exact synthCell_congr _ _ _ (by rw [← h3.basis]; exact cell_of_sample h6 hip)
    rw [he]
    obtain ⟨e1, e2, _, e4, _⟩ := synthCell_vals p.basis (valsOf p i)
    refine ⟨?_, ?_, ?_⟩
    · rw [e1]; have := h5.per.symm.trans h10.per; exact (Option.some.inj this).symm
    · rw [e4]; have := h5.k.symm.trans h10.k; exact (Option.some.inj this).symm
    · rw [e2]; have := h5.e.symm.trans h10.e; exact (Option.some.inj this).symm
  refine ⟨?_, ?_, ?_⟩
  · unfold getParam; rw [hcol .per (by decide)]
    exact congrArg Except.ok (funext fun j => (hcell j).1)
  · unfold getParam; rw [hcol .k (by decide)]
    exact congrArg Except.ok (funext fun j => (hcell j).2.1)
  · unfold getParam; rw [hcol .e (by decide)]
    exact congrArg Except.ok (funext fun j => (hcell j).2.2)

/-! ## C123 -/

/-- A derived column. -/
def derivedCol {n : Nat} (r : Chain n × List Key) (name : String) (i : Nat) : Option (Fin n → ℝ) := r.1.get? (.other (String.ofList (name.toList ++ Nat.toDigits 10 i)))

/-- C123, light planets: if in every row the planet's amplitude is that of a planet of `m` Earth masses, at most a tenth of the star (whose mass is the absolute value of the number drawn), then the derived mass
is `m`, the semi-major axis satisfies Kepler's third law for star and planet together, and the mass ratio is the ratio of the masses. -/
theorem C123_light {n : Nat} (root : (ℝ → Option ℝ) → ℝ → ℝ) (k : Consts) (hk : k.Pos) (P : DeriveFile) (post : Params ℝ) (hn : post.items.keys.Nodup) (chains : Chain n) (z : Fin n → ℝ) (zr : Nat → Fin n → ℝ)
    (r : Chain n × List Key) (h : derive root k P post chains z zr = .ok (some r)) (i : Nat) (hi : IsPlanet post i) (hP : i ≤ P.nplanets) (s : Fin n → Synth) (hs : RowOrbits chains post i s)
    (loc scale : ℝ) (hst : P.stellar = some (some loc, some scale)) (m : Fin n → ℝ)
    (hphys : ∀ j, 0 < (s j).per ∧ 0 ≤ (s j).e ∧ (s j).e < 1 ∧ loc + scale * z j ≠ 0 ∧ 0 < m j)
    (hamp : ∀ j, semiAmplitude k (m j) (s j).per |loc + scale * z j| (s j).e .earth = .ok (s j).k) (hlight : ∀ j, m j * k.Mearth ≤ |loc + scale * z j| * k.Msun / 10) :
    ∃ a mu, derivedCol r "mpsini" i = some m ∧ derivedCol r "a" i = some a ∧ derivedCol r "musini" i = some mu ∧
      ∀ j, 4 * π ^ 2 * (a j * k.au) ^ 3 = k.G * (|loc + scale * z j| * k.Msun + m j * k.Mearth) * ((s j).per * 86400) ^ 2 ∧ mu j * (|loc + scale * z j| * k.Msun) = m j * k.Mearth := by
  have hMs := hk.Msun
  have hMj := hk.Mjup
  have hMe := hk.Mearth
  obtain ⟨loc', scale', f, h1, _, hf, h2, _, _⟩ := derive_spec h
  rw [hst] at h1
  cases h1
  obtain ⟨per, amp, ecc, ms, hd⟩ := h2 i hi.1 hP
  obtain ⟨g1, g2, g3⟩ := getParam_rows hn hi hs hf P
  cases Except.ok.inj (hd.hper.symm.trans g1)
  cases Except.ok.inj (hd.hamp.symm.trans g2)
  cases Except.ok.inj (hd.hecc.symm.trans g3)
  have hmass := hd.mass
  simp only [foldMass_eq] at hmass
  obtain ⟨rows, hrows, hms⟩ := C57_inverse root k hk .earth (by decide) (List.ofFn fun j => (⟨m j, (s j).per, |loc + scale * z j|, (s j).e⟩ : Planet))
    (by
      intro p hp
      obtain ⟨j, rfl⟩ := List.mem_ofFn.1 hp
      obtain ⟨a1, a2, a3, a4, a5⟩ := hphys j
      exact ⟨a5, a1, abs_pos.2 a4, a2, a3⟩)
    (by
      intro p hp
      obtain ⟨j, rfl⟩ := List.mem_ofFn.1 hp
      have := hlight j
      simp only [unitMass]
      calc m j * (k.Mearth / k.Mjup) * k.Mjup = m j * k.Mearth := by field_simp
        _ ≤ _ := this)
  have hr : rows = List.ofFn fun j => (⟨(s j).k, (s j).per, |loc + scale * z j|, (s j).e⟩ : Star) := by
    have hlen := hrows.length_eq
    simp only [List.length_ofFn] at hlen
    apply List.ext_getElem
    · simp [← hlen]
    · intro j h3 h4
      have h5 := (List.forall₂_iff_get.1 hrows).2 j (by simp; omega) h3
      simp only [List.get_eq_getElem, List.getElem_ofFn] at h5
      obtain ⟨b1, b2, b3, b4⟩ := h5
      rw [hamp ⟨j, by omega⟩] at b4
      have b4 := Except.ok.inj b4
      rw [List.getElem_ofFn]
      rcases hrow : rows[j] with ⟨K, P', M, e⟩
      rw [hrow] at b1 b2 b3 b4
      simp only at b1 b2 b3 b4
      rw [b1, b2, b3, b4]
  rw [hr, hmass] at hms
  have hms := Except.ok.inj hms
  rw [List.map_ofFn] at hms
  have hmj : ∀ j : Fin n, ms.getD j 0 = m j := by
    intro j
    rw [hms]
    simp [List.getD]
  have c1 := hd.mpsini
  have c2 := hd.a
  have c3 := hd.musini
  simp only [hmj, foldMass_eq] at c1 c2 c3
  refine ⟨_, _, c1, c2, c3, ?_⟩
  intro j
  obtain ⟨a1, a2, a3, a4, a5⟩ := hphys j
  have hM := abs_pos.2 a4
  constructor
  · rw [(C58_law k hk _ _ a1 (by positivity)).2]
    field_simp
  · rw [div_mul_cancel₀]
    positivity

/-- The mass of a planet by the formula for light planets, in the units of `Msini`. -/
theorem lightMsini_of_amp (k : Consts) (hk : k.Pos) (m per M e K : ℝ) (hP : 0 < per) (hM : 0 < M) (h0 : 0 ≤ e) (h1 : e < 1) (h : semiAmplitude k m per M e .earth = .ok K) :
    lightMsini k ⟨K, per, M, e⟩ * k.Mjup = m * k.Mearth := by
  have hMs := hk.Msun
  have hMj := hk.Mjup
  have h := Except.ok.inj h
  subst h
  unfold lightMsini
  simp only
  rw [mul_div_cancel_right₀ _ (ne_of_gt hMs), inv_amp e per M _ hP hM h0 h1]
  field_simp

/-- C123, heavy companions: if in some row the amplitude is that of a planet heavier than a tenth of the star, and the root finder returns roots, then in every row the derived mass is the one that satisfies the
exact two-body relation (see `C57_unique`), the semi-major axis satisfies Kepler's third law for both bodies together, and the mass ratio is the ratio of the masses. -/
theorem C123_heavy {n : Nat} (root : (ℝ → Option ℝ) → ℝ → ℝ) (k : Consts) (hk : k.Pos) (P : DeriveFile) (post : Params ℝ) (hn : post.items.keys.Nodup) (chains : Chain n) (z : Fin n → ℝ) (zr : Nat → Fin n → ℝ)
    (r : Chain n × List Key) (h : derive root k P post chains z zr = .ok (some r)) (i : Nat) (hi : IsPlanet post i) (hP : i ≤ P.nplanets) (s : Fin n → Synth) (hs : RowOrbits chains post i s)
    (loc scale : ℝ) (hst : P.stellar = some (some loc, some scale))
    (hphys : ∀ j, 0 < (s j).per ∧ 0 ≤ (s j).e ∧ (s j).e < 1 ∧ loc + scale * z j ≠ 0 ∧ 0 < (s j).k)
    (j₀ : Fin n) (m₀ : ℝ) (hamp : semiAmplitude k m₀ (s j₀).per |loc + scale * z j₀| (s j₀).e .earth = .ok (s j₀).k) (hheavy : m₀ * k.Mearth > |loc + scale * z j₀| * k.Msun / 10)
    (hroot : ∀ s : Star, (∃ x, heavyFunc k s x = some 0) → heavyFunc k s (root (heavyFunc k s) k.Mjup) = some 0) :
    ∃ m a mu, derivedCol r "mpsini" i = some m ∧ derivedCol r "a" i = some a ∧ derivedCol r "musini" i = some mu ∧
      ∀ j, TwoBody k ⟨(s j).k, (s j).per, |loc + scale * z j|, (s j).e⟩ (m j * k.Mearth) ∧
        4 * π ^ 2 * (a j * k.au) ^ 3 = k.G * (|loc + scale * z j| * k.Msun + m j * k.Mearth) * ((s j).per * 86400) ^ 2 ∧ mu j * (|loc + scale * z j| * k.Msun) = m j * k.Mearth := by
  have hMs := hk.Msun
  have hMj := hk.Mjup
  have hMe := hk.Mearth
  obtain ⟨loc', scale', f, h1, _, hf, h2, _, _⟩ := derive_spec h
  rw [hst] at h1
  cases h1
  obtain ⟨per, amp, ecc, ms, hd⟩ := h2 i hi.1 hP
  obtain ⟨g1, g2, g3⟩ := getParam_rows hn hi hs hf P
  cases Except.ok.inj (hd.hper.symm.trans g1)
  cases Except.ok.inj (hd.hamp.symm.trans g2)
  cases Except.ok.inj (hd.hecc.symm.trans g3)
  have hmass := hd.mass
  simp only [foldMass_eq] at hmass
  have hpos : ∀ t ∈ (List.ofFn fun j => (⟨(s j).k, (s j).per, |loc + scale * z j|, (s j).e⟩ : Star)), 0 < t.K ∧ 0 < t.P ∧ 0 < t.M ∧ 0 ≤ t.e ∧ t.e < 1 := by
    intro t ht
    obtain ⟨j, rfl⟩ := List.mem_ofFn.1 ht
    obtain ⟨a1, a2, a3, a4, a5⟩ := hphys j
    exact ⟨a5, a1, abs_pos.2 a4, a2, a3⟩
  obtain ⟨ms', hms', hall⟩ := C57_heavy root k hk .earth (by decide) (List.ofFn fun j => (⟨(s j).k, (s j).per, |loc + scale * z j|, (s j).e⟩ : Star)) hpos
    (by
      obtain ⟨a1, a2, a3, a4, a5⟩ := hphys j₀
      refine ⟨_, List.mem_ofFn.2 ⟨j₀, rfl⟩, ?_⟩
      rw [lightMsini_of_amp k hk m₀ _ _ _ _ a1 (abs_pos.2 a4) a2 a3 hamp]
      exact hheavy)
    (by
      intro t ht
      obtain ⟨b1, b2, b3, b4, b5⟩ := hpos t ht
      refine hroot t ?_
      obtain ⟨x, hx, _⟩ := C57_unique k hk t b1 b2 b3 b4 b5
      exact ⟨x, (heavy_twoBody k hk t b1 b2 b3 b4 b5 x).2 hx⟩)
  rw [hmass] at hms'
  cases Except.ok.inj hms'
  have hmj : ∀ j : Fin n, TwoBody k ⟨(s j).k, (s j).per, |loc + scale * z j|, (s j).e⟩ (ms.getD j 0 * k.Mearth) := by
    intro j
    have hlen := hall.length_eq
    simp only [List.length_ofFn] at hlen
    have h5 := (List.forall₂_iff_get.1 hall).2 j (by simp) (by omega)
    simp only [List.get_eq_getElem, List.getElem_ofFn, unitMass] at h5
    rw [div_mul_cancel₀ _ (ne_of_gt hMj)] at h5
    have : ms.getD j 0 = ms[(j : Nat)]'(by omega) := by
      rw [List.getD, List.getElem?_eq_getElem (by omega)]; rfl
    rw [this]
    exact h5
  have c1 := hd.mpsini
  have c2 := hd.a
  have c3 := hd.musini
  simp only [foldMass_eq] at c2 c3
  refine ⟨_, _, _, c1, c2, c3, ?_⟩
  intro j
  obtain ⟨a1, a2, a3, a4, a5⟩ := hphys j
  have hM := abs_pos.2 a4
  have hmp : 0 < ms.getD j 0 := by
    have := (hmj j).1
    exact (pos_iff_pos_of_mul_pos this).2 hMe
  refine ⟨hmj j, ?_, ?_⟩
  · rw [(C58_law k hk _ _ a1 (by positivity)).2]
    field_simp
  · rw [div_mul_cancel₀]
    positivity

/-! ## C124 -/

/-- C124: the derived parameters belong to their rows: if the samples and the random numbers are put in another order, so are the derived columns, and nothing else changes. Missing: a row's derived mass is not a
function of that row alone, see `C124_neighbour_violated`. -/
theorem C124_order_partial {n : Nat} (σ : Equiv.Perm (Fin n)) (root : (ℝ → Option ℝ) → ℝ → ℝ) (k : Consts) (P : DeriveFile) (post : Params ℝ) (chains : Chain n) (z : Fin n → ℝ) (zr : Nat → Fin n → ℝ) :
    derive root k P post (reorder σ chains) (fun j => z (σ j)) (fun i j => zr i (σ j)) = (derive root k P post chains z zr).map (Option.map fun r => (reorder σ r.1, r.2)) := by
  unfold derive
  rcases P.stellar with _ | ⟨_ | loc, _ | scale⟩
  · rfl
  · rfl
  · rfl
  · rfl
  simp only [drawNormal]
  by_cases hs : scale < 0
  · rw [if_pos hs, if_pos hs]; rfl
  rw [if_neg hs, if_neg hs]
  simp only [addFixed_reorder, toSynth_reorder]
  rcases (addFixed chains post.items).toSynth post.basis post.numPlanets with e | f
  · rfl
  simp only [Except.map]
  have := foldlM_natural (reorderOut σ) (derivePlanet root k P f (fun j => foldMass (loc + scale * z j)) zr)
    (derivePlanet root k P (reorder σ f) (fun j => foldMass (loc + scale * z (σ j))) (fun i j => zr i (σ j)))
    (fun acc i => derivePlanet_reorder σ root k P f (fun j => foldMass (loc + scale * z j)) zr acc i) ((List.range P.nplanets).map (· + 1)) (chains, [])
  simp only [reorderOut] at this
  rw [this]
  rcases ((List.range P.nplanets).map (· + 1)).foldlM (derivePlanet root k P f (fun j => foldMass (loc + scale * z j)) zr) (chains, []) with e | r <;> rfl

/-! ## C125 -/

/-- C125: `derive` adds, for every planet of the setup file, the columns of mass, semi-major axis and mass ratio, and of the density exactly if the setup file gives radius and uncertainty; these are the columns
that it saves; they are distinct; all other columns of the samples are kept. -/
theorem C125_columns {n : Nat} (root : (ℝ → Option ℝ) → ℝ → ℝ) (k : Consts) (P : DeriveFile) (post : Params ℝ) (chains : Chain n) (z : Fin n → ℝ) (zr : Nat → Fin n → ℝ)
    (r : Chain n × List Key) (h : derive root k P post chains z zr = .ok (some r)) :
    r.2.Nodup ∧
    (∀ name, name ∈ r.2 ↔ ∃ i x, 1 ≤ i ∧ i ≤ P.nplanets ∧ name = .other (String.ofList (x ++ Nat.toDigits 10 i)) ∧
      (x = "mpsini".toList ∨ x = "a".toList ∨ x = "musini".toList ∨ (x = "rhop".toList ∧ ∃ g loc scale, P.planet = some g ∧ g i = (some loc, some scale)))) ∧
    (∀ name ∈ r.2, ∃ col, r.1.get? name = some col) ∧
    ∀ q, (∀ i, ∀ x ∈ ["mpsini", "a", "musini", "rp", "rhop"], q ≠ .other (String.ofList (x.toList ++ Nat.toDigits 10 i))) → r.1.get? q = chains.get? q := by
  obtain ⟨loc, scale, f, _, _, _, h2, h3, h4⟩ := derive_spec h
  have hrad : ∀ i, P.hasRadius i = true ↔ ∃ g loc scale, P.planet = some g ∧ g i = (some loc, some scale) := by
    intro i
    unfold DeriveFile.hasRadius
    rcases P.planet with _ | g
    · simp
    · rcases hg : g i with ⟨_ | a, _ | b⟩ <;> simp [hg]
  have hmem : ∀ name i, name ∈ P.outNames i ↔ ∃ x, name = derivedName x i ∧
      (x = "mpsini".toList ∨ x = "a".toList ∨ x = "musini".toList ∨ (x = "rhop".toList ∧ ∃ g loc scale, P.planet = some g ∧ g i = (some loc, some scale))) := by
    intro name i
    rw [← hrad]
    unfold DeriveFile.outNames
    constructor
    · intro hm
      rcases List.mem_append.1 hm with hm | hm
      · simp only [List.mem_cons, List.not_mem_nil, or_false] at hm
        rcases hm with rfl | rfl | rfl
        · exact ⟨_, rfl, .inl rfl⟩
        · exact ⟨_, rfl, .inr (.inl rfl)⟩
        · exact ⟨_, rfl, .inr (.inr (.inl rfl))⟩
      · by_cases hr : P.hasRadius i = true
        · rw [if_pos hr] at hm
          simp only [List.mem_cons, List.not_mem_nil, or_false] at hm
          exact ⟨_, hm, .inr (.inr (.inr ⟨rfl, hr⟩))⟩
        · rw [if_neg hr] at hm; simp at hm
    · rintro ⟨x, rfl, hx⟩
      rcases hx with rfl | rfl | rfl | ⟨rfl, hr⟩
      · simp
      · simp
      · simp
      · rw [if_pos hr]; simp
  have hkeys' : ∀ x i, (x = "mpsini".toList ∨ x = "a".toList ∨ x = "musini".toList ∨ (x = "rhop".toList ∧ ∃ g loc scale, P.planet = some g ∧ g i = (some loc, some scale))) → x ∈ deriveKeys := by
    rintro x i (rfl | rfl | rfl | ⟨rfl, _⟩) <;> decide
  refine ⟨?_, ?_, ?_, ?_⟩
  · rw [h3, List.nodup_flatMap]
    constructor
    · intro i _
      have ne : ∀ x ∈ deriveKeys, ∀ y ∈ deriveKeys, x ≠ y → derivedName x i ≠ derivedName y i := fun x hx y hy hxy he => hxy (derivedName_inj x y hx hy _ _ he).1
      have n1 := ne "mpsini".toList (by decide) "a".toList (by decide) (by decide)
      have n2 := ne "mpsini".toList (by decide) "musini".toList (by decide) (by decide)
      have n3 := ne "a".toList (by decide) "musini".toList (by decide) (by decide)
      have n4 := ne "mpsini".toList (by decide) "rhop".toList (by decide) (by decide)
      have n5 := ne "a".toList (by decide) "rhop".toList (by decide) (by decide)
      have n6 := ne "musini".toList (by decide) "rhop".toList (by decide) (by decide)
      unfold DeriveFile.outNames
      split_ifs
      · simp only [List.cons_append, List.nil_append, List.nodup_cons, List.mem_cons, List.not_mem_nil, or_false, not_or]
        exact ⟨⟨n1, n2, n4⟩, ⟨n3, n5⟩, n6, by simp⟩
      · simp only [List.append_nil, List.nodup_cons, List.mem_cons, List.not_mem_nil, or_false, not_or]
        exact ⟨⟨n1, n2⟩, n3, by simp⟩
    · refine List.Pairwise.imp_of_mem ?_ (List.Nodup.map (fun a b h => Nat.succ.inj h) List.nodup_range : ((List.range P.nplanets).map (· + 1)).Nodup)
      intro i i' _ _ hne name h5 h6
      obtain ⟨x, rfl, hx⟩ := (hmem _ _).1 h5
      obtain ⟨y, he, hy⟩ := (hmem _ _).1 h6
      exact hne (derivedName_inj _ _ (hkeys' x i hx) (hkeys' y i' hy) _ _ he).2
  · intro name
    rw [h3, List.mem_flatMap]
    constructor
    · rintro ⟨i, hi, hm⟩
      obtain ⟨i', h5, rfl⟩ := List.mem_map.1 hi
      obtain ⟨x, h6, h7⟩ := (hmem _ _).1 hm
      exact ⟨i' + 1, x, by omega, by have := List.mem_range.1 h5; omega, h6, h7⟩
    · rintro ⟨i, x, h5, h6, h7, h8⟩
      exact ⟨i, List.mem_map.2 ⟨i - 1, List.mem_range.2 (by omega), by omega⟩, (hmem _ _).2 ⟨x, h7, h8⟩⟩
  · intro name hname
    rw [h3, List.mem_flatMap] at hname
    obtain ⟨i, hi, hm⟩ := hname
    obtain ⟨i', h5, rfl⟩ := List.mem_map.1 hi
    obtain ⟨x, rfl, h7⟩ := (hmem _ _).1 hm
    obtain ⟨per, amp, ecc, ms, hd⟩ := h2 (i' + 1) (by omega) (by have := List.mem_range.1 h5; omega)
    rcases h7 with rfl | rfl | rfl | ⟨rfl, g, loc, scale, h8, h9⟩
    · exact ⟨_, hd.mpsini⟩
    · exact ⟨_, hd.a⟩
    · exact ⟨_, hd.musini⟩
    · exact ⟨_, (hd.radius g loc scale h8 h9).2.2⟩
  · intro q hq
    refine h4 q (fun i x hx => ?_)
    have : ∃ y ∈ ["mpsini", "a", "musini", "rp", "rhop"], x = y.toList := by
      revert x; decide
    obtain ⟨y, h5, rfl⟩ := this
    exact hq i y h5

theorem foldlM_ok {β δ : Type} (f : β → δ → Except PyErr β) (l : List δ) (h : ∀ x ∈ l, ∀ b, ∃ b', f b x = .ok b') : ∀ b, ∃ b', l.foldlM f b = .ok b' := by
  induction l with
  | nil => intro b; exact ⟨b, rfl⟩
  | cons x t ih =>
    intro b
    obtain ⟨b', h1⟩ := h x (by simp) b
    obtain ⟨b'', h2⟩ := ih (fun y hy => h y (by simp [hy])) b'
    refine ⟨b'', ?_⟩
    change (f b x >>= _) = _
    rw [h1]
    exact h2

/-- C125: `derive` completes if the setup file gives the stellar mass, has no more planets than the posterior, no uncertainty is negative, and every parameter of the posterior that is read is fixed or has a column of
samples. -/
theorem C125_completes {n : Nat} (root : (ℝ → Option ℝ) → ℝ → ℝ) (k : Consts) (P : DeriveFile) (post : Params ℝ) (hn : post.items.keys.Nodup) (chains : Chain n) (z : Fin n → ℝ) (zr : Nat → Fin n → ℝ)
    (loc scale : ℝ) (hst : P.stellar = some (some loc, some scale)) (hs : 0 ≤ scale) (hN : P.nplanets ≤ post.numPlanets)
    (hr : ∀ g i loc scale, P.planet = some g → g i = (some loc, some scale) → 0 ≤ scale)
    (hc : ∀ x ∈ post.basis.words, ∀ m, IsPlanet post m → ∃ q, post.items.get? (.orb x m) = some q ∧ (q.vary = .yes → ∃ col, chains.get? (.orb x m) = some col)) :
    ∃ r, derive root k P post chains z zr = .ok (some r) := by
  unfold derive
  rw [hst]
  simp only [drawNormal]
  rw [if_neg (not_lt.2 hs)]
  simp only
  obtain ⟨f, hf⟩ := (addFixed chains post.items).toSynth_ok post.basis post.numPlanets (by
    intro i hi x hx
    obtain ⟨q, h1, h2⟩ := hc x (synthReads_words _ x hx) (i + 1) ⟨by omega, by omega⟩
    rw [← Dict.get?_isSome_iff, get?_addFixed _ hn, h1]
    by_cases hv : q.vary = .yes
    · obtain ⟨col, h3⟩ := h2 hv
      simp [hv, h3]
    · simp [hv])
  rw [hf]
  simp only
  obtain ⟨_, h2, _⟩ := Chain.toSynth_spec _ _ _ _ hf
  obtain ⟨r, h3⟩ := foldlM_ok (derivePlanet root k P f (fun j => foldMass (loc + scale * z j)) zr) ((List.range P.nplanets).map (· + 1)) (by
    intro i hi acc
    obtain ⟨i', h3, rfl⟩ := List.mem_map.1 hi
    have h3 := List.mem_range.1 h3
    have hg : ∀ x ∈ synthNames, ∃ col, getParam f P (i' + 1) x = .ok col := by
      intro x hx
      unfold getParam
      rw [h2 i' (by omega) x hx]
      exact ⟨_, rfl⟩
    obtain ⟨c1, e1⟩ := hg .per (by decide)
    obtain ⟨c2, e2⟩ := hg .k (by decide)
    obtain ⟨c3, e3⟩ := hg .e (by decide)
    unfold derivePlanet
    rw [e1, e2, e3]
    simp only [msini]
    unfold addRadius
    rcases hp : P.planet with _ | g
    · exact ⟨_, rfl⟩
    rcases hgi : g (i' + 1) with ⟨_ | a, _ | b⟩
    · simp only [hgi]; exact ⟨_, rfl⟩
    · simp only [hgi]; exact ⟨_, rfl⟩
    · simp only [hgi]; exact ⟨_, rfl⟩
    · simp only [hgi, drawNormal]
      rw [if_neg (not_lt.2 (hr g _ _ _ hp hgi))]
      exact ⟨_, rfl⟩) (chains, [])
  rw [h3]
  exact ⟨r, rfl⟩

/-! ## A concrete case: one planet on a circular orbit of one year, two samples -/

/-- The posterior: period and amplitude vary, the rest is fixed. -/
noncomputable def oneYear : Params ℝ where
  numPlanets := 1
  basis := .perTpEWK
  planetParameters := BasisName.words .perTpEWK
  letters := none
  items := [(.orb .per 1, { value := 365.25 }), (.orb .tp 1, { value := 0, vary := .no }), (.orb .e 1, { value := 0, vary := .no }), (.orb .w 1, { value := 0, vary := .no }), (.orb .k 1, { value := 100 })]

/-- Two samples with amplitudes 100 m/s and `K`. -/
noncomputable def twoSamples (K : ℝ) : Chain 2 := [(.orb .per 1, fun _ => 365.25), (.orb .k 1, fun j => if j = 0 then 100 else K)]

/-- The setup file: one solar mass without uncertainty, and a radius. -/
noncomputable def oneYearFile : DeriveFile where
  nplanets := 1
  params := oneYear
  stellar := some (some 1, some 0)
  planet := some (fun _ => (some 2, some 3))

theorem oneYear_nodup : oneYear.items.keys.Nodup := by
  change [Key.orb .per 1, .orb .tp 1, .orb .e 1, .orb .w 1, .orb .k 1].Nodup
  decide

theorem twoSamples_rows (K : ℝ) : RowOrbits (twoSamples K) oneYear 1 (fun j => ⟨365.25, 0, 0, 0, if j = 0 then 100 else K⟩) := by
  intro j
  let p : Params ℝ := { oneYear with items := [(.orb .per 1, { value := 365.25 }), (.orb .tp 1, { value := 0, vary := .no }), (.orb .e 1, { value := 0, vary := .no }), (.orb .w 1, { value := 0, vary := .no }),
    (.orb .k 1, { value := if j = 0 then 100 else K })] }
  have hp : p.items.keys = [Key.orb .per 1, .orb .tp 1, .orb .e 1, .orb .w 1, .orb .k 1] := rfl
  have hrow : IsRow (twoSamples K) oneYear j p := by
    refine ⟨rfl, rfl, by rw [hp]; decide, ?_⟩
    intro x hx m hm
    have : m = 1 := by have := hm.1; have : m ≤ 1 := hm.2; omega
    subst this
    change x ∈ [PName.per, .tp, .e, .w, .k] at hx
    simp only [List.mem_cons, List.not_mem_nil, or_false] at hx
    rcases hx with rfl | rfl | rfl | rfl | rfl
    · exact ⟨{ value := 365.25 }, rfl, fun h => absurd rfl h, fun _ => ⟨_, rfl, rfl⟩⟩
    · exact ⟨{ value := 0, vary := .no }, rfl, fun _ => rfl, fun h => by cases h⟩
    · exact ⟨{ value := 0, vary := .no }, rfl, fun _ => rfl, fun h => by cases h⟩
    · exact ⟨{ value := 0, vary := .no }, rfl, fun _ => rfl, fun h => by cases h⟩
    · exact ⟨{ value := 100 }, rfl, fun h => absurd rfl h, fun _ => ⟨_, rfl, rfl⟩⟩
  obtain ⟨q, hq, _, _, _, _, h3⟩ := toSynth_values 0 true p (sample_of_row oneYear_nodup hrow).2
  exact ⟨p, q, 0, hrow, hq, h3 1 ⟨le_refl _, le_refl _⟩⟩

theorem twoSamples_ok (root : (ℝ → Option ℝ) → ℝ → ℝ) (k : Consts) (K : ℝ) (z : Fin 2 → ℝ) (zr : Nat → Fin 2 → ℝ) : ∃ r, derive root k oneYearFile oneYear (twoSamples K) z zr = .ok (some r) := by
  refine C125_completes root k oneYearFile oneYear oneYear_nodup (twoSamples K) z zr 1 0 rfl (le_refl _) (le_refl _) ?_ ?_
  · intro g i loc scale h1 h2
    cases Option.some.inj h1
    cases Option.some.inj (Prod.mk.inj h2).2
    norm_num
  · intro x hx m hm
    have : m = 1 := by have := hm.1; have : m ≤ 1 := hm.2; omega
    subst this
    change x ∈ [PName.per, .tp, .e, .w, .k] at hx
    simp only [List.mem_cons, List.not_mem_nil, or_false] at hx
    rcases hx with rfl | rfl | rfl | rfl | rfl
    · exact ⟨{ value := 365.25 }, rfl, fun _ => ⟨_, rfl⟩⟩
    · exact ⟨{ value := 0, vary := .no }, rfl, fun h => by cases h⟩
    · exact ⟨{ value := 0, vary := .no }, rfl, fun h => by cases h⟩
    · exact ⟨{ value := 0, vary := .no }, rfl, fun h => by cases h⟩
    · exact ⟨{ value := 100 }, rfl, fun _ => ⟨_, rfl⟩⟩

/-- On a circular orbit of one year around one solar mass, the amplitude in units of `K0` is the mass in Jupiter masses. -/
theorem oneYear_amp (K : ℝ) : semiAmplitude astropy (K / K0 * astropy.Mjup / astropy.Mearth) 365.25 |1 + 0 * 0| 0 .earth = .ok K := by
  have hj := astropy_pos.Mjup
  have he := astropy_pos.Mearth
  have hK : K0 ≠ 0 := by unfold K0; norm_num
  unfold semiAmplitude toYears
  norm_num
  field_simp

/-- C124 in full is false: whether the formula for light planets is used is decided for all rows together. Whatever root finder is used, provided that it returns roots: two tables of two samples, the first rows
of which are equal, give different masses in the first row (with astropy's constants, for an amplitude of 100 m/s in the first row, and 100 m/s or 30 km/s in the second). -/
theorem C124_neighbour_violated (root : (ℝ → Option ℝ) → ℝ → ℝ) (hroot : ∀ s : Star, (∃ x, heavyFunc astropy s x = some 0) → heavyFunc astropy s (root (heavyFunc astropy s) astropy.Mjup) = some 0) :
    ∃ (P : DeriveFile) (post : Params ℝ) (c c' : Chain 2) (r r' : Chain 2 × List Key) (m m' : Fin 2 → ℝ), (∀ q, (c.get? q).map (fun col => col 0) = (c'.get? q).map (fun col => col 0)) ∧
      derive root astropy P post c (fun _ => 0) (fun _ _ => 0) = .ok (some r) ∧ derive root astropy P post c' (fun _ => 0) (fun _ _ => 0) = .ok (some r') ∧
      derivedCol r "mpsini" 1 = some m ∧ derivedCol r' "mpsini" 1 = some m' ∧ m 0 ≠ m' 0 := by
  obtain ⟨r, hr⟩ := twoSamples_ok root astropy 100 (fun _ => 0) (fun _ _ => 0)
  obtain ⟨r', hr'⟩ := twoSamples_ok root astropy 30000 (fun _ => 0) (fun _ _ => 0)
  obtain ⟨_, _, h1, _⟩ := C123_light root astropy astropy_pos _ _ oneYear_nodup _ _ _ r hr 1 ⟨le_refl _, le_refl _⟩ (le_refl _) _ (twoSamples_rows 100) 1 0 rfl
    (fun _ => 100 / K0 * astropy.Mjup / astropy.Mearth)
    (by intro j; norm_num [K0, astropy])
    (by
      intro j
      have : (if j = 0 then (100 : ℝ) else 100) = 100 := by split_ifs <;> rfl
      simp only [this]
      exact oneYear_amp 100)
    (by intro j; norm_num [K0, astropy])
  obtain ⟨m', _, _, h2, _, _, h3⟩ := C123_heavy root astropy astropy_pos _ _ oneYear_nodup _ _ _ r' hr' 1 ⟨le_refl _, le_refl _⟩ (le_refl _) _ (twoSamples_rows 30000) 1 0 rfl
    (by intro j; fin_cases j <;> norm_num) 1 (30000 / K0 * astropy.Mjup / astropy.Mearth) (oneYear_amp 30000) (by norm_num [K0, astropy]) hroot
  refine ⟨_, _, _, _, r, r', _, m', ?_, hr, hr', h1, h2, ?_⟩
  · intro q
    have hq : ∀ K, (twoSamples K).get? q = if Key.orb .per 1 = q then some (fun _ => 365.25) else if Key.orb .k 1 = q then some (fun j => if j = 0 then 100 else K) else none := by
      intro K
      simp only [twoSamples, Dict.get?]
    rw [hq, hq]
    split_ifs <;> simp
  · intro he
    obtain ⟨hx, hb⟩ := (h3 0).1
    rw [← he] at hx hb
    simp only [if_true] at hb
    set x := 100 / K0 * astropy.Mjup / astropy.Mearth * astropy.Mearth with hxd
    have hxv : x = 100 / K0 * astropy.Mjup := by rw [hxd]; field_simp [ne_of_gt astropy_pos.Mearth]
    -- the relation, cubed
    have hG : 0 < 2 * π * astropy.G / toSeconds 365.25 := by
      have := pi_pos; have := astropy_pos.G; unfold toSeconds; positivity
    have hM : (0 : ℝ) ≤ |1 + 0 * 0| * astropy.Msun + x := by
      have := astropy_pos.Msun
      positivity
    have h4 := congrArg (fun y => y ^ 3) hb
    simp only [mul_pow] at h4
    rw [cube_rpow hM, ← Real.rpow_natCast ((2 * π * astropy.G / toSeconds 365.25) ^ (1 / 3 : ℝ)), ← Real.rpow_mul hG.le] at h4
    norm_num at h4
    rw [hxv] at h4
    have hp1 := pi_gt_d4
    have hp2 := pi_lt_d4
    norm_num [K0, astropy, toSeconds] at h4
    nlinarith

/-! ## C126 -/

theorem foldlM_congr_mem {β δ : Type} (f g : β → δ → Except PyErr β) (l : List δ) (h : ∀ x ∈ l, ∀ b, f b x = g b x) : ∀ b, l.foldlM f b = l.foldlM g b := by
  induction l with
  | nil => intro b; rfl
  | cons x t ih =>
    intro b
    change (f b x >>= _) = (g b x >>= _)
    rw [h x (by simp)]
    rcases g b x with e | b'
    · rfl
    · exact ih (fun y hy => h y (by simp [hy])) b'

/-- C126: if the setup file has no more planets than the posterior, the parameter values of the setup file do not matter. Missing: further planets, see `C126_beyond_violated`. -/
theorem C126_source_partial {n : Nat} (root : (ℝ → Option ℝ) → ℝ → ℝ) (k : Consts) (P : DeriveFile) (post : Params ℝ) (chains : Chain n) (z : Fin n → ℝ) (zr : Nat → Fin n → ℝ)
    (hN : P.nplanets ≤ post.numPlanets) (params' : Params ℝ) : derive root k { P with params := params' } post chains z zr = derive root k P post chains z zr := by
  obtain ⟨np, par, st, pl⟩ := P
  unfold derive
  simp only at hN ⊢
  rcases st with _ | ⟨_ | loc, _ | scale⟩
  · rfl
  · rfl
  · rfl
  · rfl
  simp only
  rcases drawNormal loc scale z with e | m
  · rfl
  simp only
  rcases hf : (addFixed chains post.items).toSynth post.basis post.numPlanets with e | f
  · rfl
  simp only
  obtain ⟨_, h2, _⟩ := Chain.toSynth_spec _ _ _ _ hf
  rw [foldlM_congr_mem (derivePlanet root k ⟨np, params', some (some loc, some scale), pl⟩ f (fun j => foldMass (m j)) zr) (derivePlanet root k ⟨np, par, some (some loc, some scale), pl⟩ f (fun j => foldMass (m j)) zr)]
  intro i hi acc
  obtain ⟨i', h3, rfl⟩ := List.mem_map.1 hi
  have h3 := List.mem_range.1 h3
  have hg : ∀ x ∈ synthNames, getParam f ⟨np, params', some (some loc, some scale), pl⟩ (i' + 1) x = getParam f ⟨np, par, some (some loc, some scale), pl⟩ (i' + 1) x := by
    intro x hx
    unfold getParam
    rw [h2 i' (by omega) x hx]
  unfold derivePlanet
  rw [hg .per (by decide), hg .k (by decide), hg .e (by decide)]
  rfl

/-- C126 in full is false: for a planet of the setup file that the posterior does not have, and so was never fitted, the derived parameters are computed from the values in the setup file. -/
theorem C126_beyond_violated {n : Nat} (root : (ℝ → Option ℝ) → ℝ → ℝ) (k : Consts) (hk : k.Pos) (P : DeriveFile) (post : Params ℝ) (hn : post.items.keys.Nodup) (chains : Chain n) (z : Fin n → ℝ) (zr : Nat → Fin n → ℝ)
    (r : Chain n × List Key) (h : derive root k P post chains z zr = .ok (some r)) (i : Nat) (h1 : post.numPlanets < i) (hP : i ≤ P.nplanets)
    (hno : ∀ x ∈ [PName.per, .k, .e], chains.get? (.orb x i) = none ∧ post.items.get? (.orb x i) = none)
    (loc scale : ℝ) (hst : P.stellar = some (some loc, some scale)) :
    ∃ per amp ecc m a, valueOf P.params .per i = some per ∧ valueOf P.params .k i = some amp ∧ valueOf P.params .e i = some ecc ∧ derivedCol r "mpsini" i = some m ∧ derivedCol r "a" i = some a ∧
      msini root k (List.ofFn fun j => ⟨amp, per, |loc + scale * z j|, ecc⟩) .earth = .ok (List.ofFn m) ∧
      ∀ j, 0 < per → loc + scale * z j ≠ 0 → 0 ≤ m j → 4 * π ^ 2 * (a j * k.au) ^ 3 = k.G * (|loc + scale * z j| * k.Msun + m j * k.Mearth) * (per * 86400) ^ 2 := by
  have hMs := hk.Msun
  have hMe := hk.Mearth
  obtain ⟨loc', scale', f, hst', _, hf, h2, _, _⟩ := derive_spec h
  rw [hst] at hst'
  cases hst'
  obtain ⟨per, amp, ecc, ms, hd⟩ := h2 i (by omega) hP
  obtain ⟨_, _, h3⟩ := Chain.toSynth_spec _ _ _ _ hf
  have hsrc : ∀ x ∈ [PName.per, .k, .e], ∀ col, getParam f P i x = .ok col → ∃ v, valueOf P.params x i = some v ∧ col = fun _ => v := by
    intro x hx col hc
    have hnone : f.get? (.orb x i) = none := by
      rw [h3 (.orb x i) (by
        intro i' hi' y hy he
        injection he with _ he
        omega)]
      rw [get?_addFixed _ hn, (hno x hx).2]
      simp [(hno x hx).1]
    unfold getParam at hc
    rw [hnone] at hc
    simp only at hc
    rcases hq : P.params.items.get? (.orb x i) with _ | q
    · rw [hq] at hc; cases hc
    · rw [hq] at hc
      exact ⟨q.value, by simp [valueOf, hq], (Except.ok.inj hc).symm⟩
  obtain ⟨per', v1, rfl⟩ := hsrc .per (by simp) _ hd.hper
  obtain ⟨amp', v2, rfl⟩ := hsrc .k (by simp) _ hd.hamp
  obtain ⟨ecc', v3, rfl⟩ := hsrc .e (by simp) _ hd.hecc
  have hmass := hd.mass
  have c2 := hd.a
  simp only [foldMass_eq] at hmass c2
  have hlen : ms.length = n := by
    have := hmass
    unfold msini at this
    have := congrArg List.length (Except.ok.inj this)
    simp only [List.length_map] at this
    rw [← this]
    split_ifs <;> simp
  refine ⟨per', amp', ecc', _, _, v1, v2, v3, hd.mpsini, c2, ?_, ?_⟩
  · rw [hmass]
    congr 1
    apply List.ext_getElem
    · simp [hlen]
    · intro j h5 h6
      simp [List.getD, List.getElem?_eq_getElem h5]
  · intro j hper hM hm
    have hM := abs_pos.2 hM
    rw [(C58_law k hk _ _ hper (by positivity)).2]
    field_simp

/-! ## C127 -/

/-- C127: for every planet with a radius in the setup file, the density is the mass divided by the volume of a ball whose radius is the number drawn, in every row where this number is not 0. Missing: that the density
is positive, see `C127_negative_violated`. -/
theorem C127_density_partial {n : Nat} (root : (ℝ → Option ℝ) → ℝ → ℝ) (k : Consts) (hk : k.Pos) (P : DeriveFile) (post : Params ℝ) (chains : Chain n) (z : Fin n → ℝ) (zr : Nat → Fin n → ℝ)
    (r : Chain n × List Key) (h : derive root k P post chains z zr = .ok (some r)) (i : Nat) (h1 : 1 ≤ i) (hP : i ≤ P.nplanets) (g : Nat → Option ℝ × Option ℝ) (hg : P.planet = some g) (loc scale : ℝ)
    (hgi : g i = (some loc, some scale)) :
    ∃ m rho, derivedCol r "mpsini" i = some m ∧ derivedCol r "rhop" i = some rho ∧
      ∀ j, loc + scale * zr i j ≠ 0 → rho j * (4 / 3 * π * ((loc + scale * zr i j) * k.Rearth * 100) ^ 3) = m j * k.Mearth * 1000 := by
  have hpi := pi_pos
  have hR := hk.Rearth
  obtain ⟨_, _, f, _, _, _, h2, _, _⟩ := derive_spec h
  obtain ⟨per, amp, ecc, ms, hd⟩ := h2 i h1 hP
  obtain ⟨_, _, hrho⟩ := hd.radius g loc scale hg hgi
  refine ⟨_, _, hd.mpsini, hrho, ?_⟩
  intro j hj
  simp only [density]
  norm_num
  field_simp
  norm_num

/-- C127 in full is false: radii are drawn from a normal distribution and, unlike the stellar masses, not made positive: in every row with a negative radius the density of a planet of positive mass is negative. -/
theorem C127_negative_violated {n : Nat} (root : (ℝ → Option ℝ) → ℝ → ℝ) (k : Consts) (hk : k.Pos) (P : DeriveFile) (post : Params ℝ) (chains : Chain n) (z : Fin n → ℝ) (zr : Nat → Fin n → ℝ)
    (r : Chain n × List Key) (h : derive root k P post chains z zr = .ok (some r)) (i : Nat) (h1 : 1 ≤ i) (hP : i ≤ P.nplanets) (g : Nat → Option ℝ × Option ℝ) (hg : P.planet = some g) (loc scale : ℝ)
    (hgi : g i = (some loc, some scale)) (j : Fin n) (hj : loc + scale * zr i j < 0) :
    ∃ m rho, derivedCol r "mpsini" i = some m ∧ derivedCol r "rhop" i = some rho ∧ (0 < m j → rho j < 0) := by
  obtain ⟨m, rho, h2, h3, h4⟩ := C127_density_partial root k hk P post chains z zr r h i h1 hP g hg loc scale hgi
  refine ⟨m, rho, h2, h3, ?_⟩
  intro hm
  have h5 := h4 j (ne_of_lt hj)
  have hpi := pi_pos
  have hR := hk.Rearth
  have hMe := hk.Mearth
  have hneg : 4 / 3 * π * ((loc + scale * zr i j) * k.Rearth * 100) ^ 3 < 0 := by
    have : (loc + scale * zr i j) * k.Rearth * 100 < 0 := by nlinarith
    have : ((loc + scale * zr i j) * k.Rearth * 100) ^ 3 < 0 := Odd.pow_neg (by decide) this
    nlinarith
  have hpos : 0 < m j * k.Mearth * 1000 := by positivity
  by_contra hc
  push Not at hc
  nlinarith [mul_nonpos_of_nonneg_of_nonpos hc hneg.le]

/-- Non-vacuity of C127: a radius of 2 ± 3 Earth radii, of which -1 is drawn. -/
example (root : (ℝ → Option ℝ) → ℝ → ℝ) : ∃ r m rho, derive root astropy oneYearFile oneYear (twoSamples 100) (fun _ => 0) (fun _ _ => -1) = .ok (some r) ∧
    derivedCol r "mpsini" 1 = some m ∧ derivedCol r "rhop" 1 = some rho ∧ (0 < m 0 → rho 0 < 0) := by
  obtain ⟨r, hr⟩ := twoSamples_ok root astropy 100 (fun _ => 0) (fun _ _ => -1)
  obtain ⟨m, rho, h1, h2, h3⟩ := C127_negative_violated root astropy astropy_pos _ _ _ _ _ r hr 1 (le_refl _) (le_refl _) _ rfl 2 3 rfl 0 (by norm_num)
  exact ⟨r, m, rho, hr, h1, h2, h3⟩

/-- Non-vacuity of C126: a posterior without planets, and a setup file with one. -/
example (root : (ℝ → Option ℝ) → ℝ → ℝ) : ∃ r a, derive root astropy { oneYearFile with planet := none } (Params.init 0 0 .perTpEWK none) ([] : Chain 2) (fun _ => 0) (fun _ _ => 0) = .ok (some r) ∧
    derivedCol r "a" 1 = some a := by
  have hr : ∃ r, derive root astropy { oneYearFile with planet := none } (Params.init 0 0 .perTpEWK none) ([] : Chain 2) (fun _ => 0) (fun _ _ => 0) = .ok (some r) := by
    unfold derive drawNormal
    simp only [oneYearFile]
    rw [if_neg (by norm_num)]
    exact ⟨_, rfl⟩
  obtain ⟨r, hr⟩ := hr
  obtain ⟨per, amp, ecc, m, a, _, _, _, _, h, _⟩ := C126_beyond_violated root astropy astropy_pos _ _ (by exact List.nodup_nil) _ _ _ r hr 1 (by exact Nat.zero_lt_one) (le_refl _) (by
    intro x _; exact ⟨rfl, rfl⟩) 1 0 rfl
  exact ⟨r, a, hr, h⟩

/-- Non-vacuity of C124 and C125: the samples in reverse order; the saved columns. -/
example (root : (ℝ → Option ℝ) → ℝ → ℝ) : ∃ r : Chain 2 × List Key, derive root astropy oneYearFile oneYear (reorder Fin.rev (twoSamples 100)) (fun _ => 0) (fun _ _ => 1) = .ok (some (reorder Fin.rev r.1, r.2)) ∧
    Key.other "musini1" ∈ r.2 ∧ Key.other "rhop1" ∈ r.2 := by
  obtain ⟨r, hr⟩ := twoSamples_ok root astropy 100 (fun _ => 0) (fun _ _ => 1)
  have := C124_order_partial Fin.revPerm root astropy oneYearFile oneYear (twoSamples 100) (fun _ => 0) (fun _ _ => 1)
  rw [hr] at this
  refine ⟨r, this, ?_, ?_⟩
  · exact ((C125_columns root astropy _ _ _ _ _ r hr).2.1 _).2 ⟨1, "musini".toList, le_refl _, le_refl _, by decide, .inr (.inr (.inl rfl))⟩
  · exact ((C125_columns root astropy _ _ _ _ _ r hr).2.1 _).2 ⟨1, "rhop".toList, le_refl _, le_refl _, by decide, .inr (.inr (.inr ⟨rfl, _, 2, 3, rfl, rfl⟩))⟩

/-! ## C114 -/

/-- C114 in full is false also with few planets: the mass ratio, which `derive` saves for every planet (C125), has no row in the table of derived parameters. -/
theorem C114_musini_violated (order : List Text → List Text) (ho : ∀ l, (order l).Perm l) (units : Dict Text Text) (insts : List Text) (r : ReportNames) (s : Samples) (N : Nat) (hN : N ≤ 9)
    (hcols : r.columns = s.keys) (hplain : ∀ k ∈ ["mpsini".toList, "rhop".toList, "a".toList], k ∉ s.keys ∧ units.get? k = none)
    (hmax : ∀ k ∈ ["mpsini".toList, "rhop".toList, "a".toList], ∀ n, k ++ Nat.toDigits 10 n ∉ r.maxparams) (i : Nat) :
    ∀ row ∈ tabDerived order units insts r (derivedPlot N s).2 N, row.source ≠ "musini".toList ++ Nat.toDigits 10 i := by
  intro row hrow he
  rw [(C114_rows_partial order ho units insts r s N hN hcols hplain hmax).mem_iff, List.mem_map] at hrow
  obtain ⟨⟨q, u⟩, hq, rfl⟩ := hrow
  obtain ⟨n, k, _, _, hk, rfl, _⟩ := (mem_derivedPlot_labels N s q u).1 hq
  have he : k ++ digits n = "musini".toList ++ digits i := he
  have hd : ∀ k ∈ derivedKeys, ∀ c ∈ k, c.isDigit = false := by decide
  have := congrArg (List.takeWhile (fun c => !c.isDigit)) he
  rw [takeWhile_label k n (hd k hk), takeWhile_label _ i (by decide)] at this
  subst this
  exact absurd hk (by decide)

/-- Non-vacuity: the samples with the derived columns of one planet. -/
example : ∀ row ∈ tabDerived id texUnits [] ⟨["mpsini1".toList, "a1".toList, "musini1".toList], [], []⟩ (derivedPlot 1 [("mpsini1".toList, [some 5]), ("a1".toList, [some 1]), ("musini1".toList, [some 7])]).2 1,
    row.source ≠ "musini".toList ++ Nat.toDigits 10 1 :=
  C114_musini_violated id (fun _ => .refl _) texUnits [] _ _ 1 (by decide) rfl (by decide) (by simp) 1

end Radvel
