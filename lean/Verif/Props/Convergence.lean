import Verif.Model.Convergence
import Verif.Lemmas.Stats
import Mathlib.Data.List.GetD

/-!
# Property theorems C64, C65 and C66 (first part)
-/

namespace Radvel
open Classical

/-- All ensembles have `nd` parameters, `nw` walkers and `ns` steps. -/
def Rect (chains : List Ens) (nd nw ns : Nat) : Prop :=
  ∀ e ∈ chains, e.length = nd ∧ ∀ p ∈ e, p.length = nw ∧ ∀ w ∈ p, w.length = ns

theorem flatten_length (p : List (List ℝ)) (nw ns : Nat) (h : p.length = nw ∧ ∀ w ∈ p, w.length = ns) : p.flatten.length = nw * ns := by
  rw [List.length_flatten, ← h.1]
  have : p.map List.length = List.replicate p.length ns := by
    rw [List.eq_replicate_iff]
    exact ⟨by simp, by intro x hx; obtain ⟨w, hw, rfl⟩ := List.mem_map.1 hx; exact h.2 w hw⟩
  rw [this]; simp

theorem Rect.samples {chains : List Ens} {nd nw ns : Nat} (h : Rect chains nd nw ns) {e : Ens} (he : e ∈ chains) {p : Nat} (hp : p < nd) :
    (e.getD p []).flatten.length = nw * ns := by
  obtain ⟨h1, h2⟩ := h e he
  have hlt : p < e.length := by omega
  rw [List.getD_eq_getElem _ _ hlt]
  exact flatten_length _ _ _ (h2 _ (List.getElem_mem hlt))

/-- What a completed call has computed. -/
structure ConvFacts (itime : List Ens → List Fl) (chains : List Ens) (old : Option (List Fl)) (th : Thresholds) (out : ConvOut) (nd nw ns : Nat) : Prop where
  ne : chains ≠ []
  ndPos : 0 < nd
  steps : 1 < nw * ns
  gr : out.gelmanrubin = (List.range nd).map fun p => grOf ((nw * ns : Nat) : ℝ) (parChains chains p)
  tz : out.tz = tzOf ((nw * ns : Nat) : ℝ) chains.length ((List.range nd).map (parChains chains))
  ac : out.autocorrelation = itime chains
  archange : out.archange = archangeOf (itime chains) old
  mixed : ∃ a b c d, Fl.pyMin out.tz = .ok a ∧ Fl.pyMax out.gelmanrubin = .ok b ∧ Fl.npMin out.afactor = .ok c ∧ Fl.npMax out.archange = .ok d ∧
    (out.ismixed = true ↔ ((if (chains.length : ℝ) ≠ 1 then th.minTz else Fl.neg).lt a ∧ b.lt th.maxGR ∧ th.minAfactor.lt c ∧ d.lt th.maxArchange))

theorem convFacts {itime : List Ens → List Fl} {chains : List Ens} {old : Option (List Fl)} {th : Thresholds} {out : ConvOut} {nd nw ns : Nat} (hr : Rect chains nd nw ns)
    (h : convergenceCalculate itime chains old th = .ok out) : ConvFacts itime chains old th out nd nw ns := by
  cases chains with
  | nil => cases h
  | cons e0 es =>
    unfold convergenceCalculate at h
    simp only at h
    have h0 : e0.length = nd := (hr e0 (by simp)).1
    split at h
    · cases h
    · rename_i hn
      have hnd : 0 < nd := by
        rcases Nat.eq_zero_or_pos nd with h1 | h1
        · exfalso
          apply hn
          have : e0 = [] := by rw [← List.length_eq_zero_iff, h0, h1]
          intro h2
          rw [this] at h2
          simp at h2
        · exact h1
      have hl : (e0.getD 0 []).flatten.length = nw * ns := hr.samples (by simp) hnd
      rw [not_not, hl] at hn
      rw [hl, h0] at h
      rcases ha : Fl.pyMin (tzOf ((nw * ns : Nat) : ℝ) ((e0 :: es).length : ℝ) ((List.range nd).map (parChains (e0 :: es)))) with e | a
      · rw [ha] at h; cases h
      rcases hb : Fl.pyMax (((List.range nd).map (parChains (e0 :: es))).map (grOf ((nw * ns : Nat) : ℝ))) with e | b
      · rw [ha, hb] at h; cases h
      rcases hc : Fl.npMin ((itime (e0 :: es)).map (Fl.div (.fin (((e0 :: es).length : ℝ) * ((e0.getD 0 []).getD 0 []).length)))) with e | c
      · rw [ha, hb, hc] at h; cases h
      rcases hd : Fl.npMax (archangeOf (itime (e0 :: es)) old) with e | d
      · rw [ha, hb, hc, hd] at h; cases h
      rw [ha, hb, hc, hd] at h
      cases h
      refine ⟨by simp, hnd, hn, by simp only [List.map_map]; rfl, rfl, rfl, rfl, a, b, c, d, ha, hb, hc, hd, ?_⟩
      simp only [decide_eq_true_eq]

/-! ## C64 -/

/-- Shift and scale every parameter by its own amounts. -/
def affineEns (a b : Nat → ℝ) (e : Ens) : Ens := e.mapIdx fun p ws => ws.map fun w => w.map fun x => a p * x + b p

theorem rect_affine {chains : List Ens} {nd nw ns : Nat} (h : Rect chains nd nw ns) (a b : Nat → ℝ) : Rect (chains.map (affineEns a b)) nd nw ns := by
  intro e he
  obtain ⟨e', he', rfl⟩ := List.mem_map.1 he
  obtain ⟨h1, h2⟩ := h e' he'
  refine ⟨by simp [affineEns, h1], ?_⟩
  intro p hp
  unfold affineEns at hp
  rw [List.mem_mapIdx] at hp
  obtain ⟨i, hi, rfl⟩ := hp
  obtain ⟨h3, h4⟩ := h2 _ (List.getElem_mem hi)
  refine ⟨by simp [h3], ?_⟩
  intro w hw
  obtain ⟨w', hw', rfl⟩ := List.mem_map.1 hw
  simpa using h4 w' hw'

theorem parChains_affine {chains : List Ens} {nd nw ns : Nat} (h : Rect chains nd nw ns) (a b : Nat → ℝ) {p : Nat} (hp : p < nd) :
    parChains (chains.map (affineEns a b)) p = (parChains chains p).map fun c => c.map fun x => a p * x + b p := by
  unfold parChains
  rw [List.map_map, List.map_map]
  apply List.map_congr_left
  intro e he
  have hlt : p < e.length := by rw [(h e he).1]; exact hp
  simp only [Function.comp]
  have h1 : (affineEns a b e).getD p [] = (e.getD p []).map fun w => w.map fun x => a p * x + b p := by
    unfold affineEns
    rw [List.getD_eq_getElem _ _ (by simpa using hlt), List.getD_eq_getElem _ _ hlt, List.getElem_mapIdx]
  rw [h1, List.map_flatten]

theorem within_affine (cs : List (List ℝ)) (a b : ℝ) : within (cs.map fun c => c.map fun x => a * x + b) = a ^ 2 * within cs := by
  unfold within
  rw [List.map_map, ← mean_scale, List.map_map]
  congr 1
  apply List.map_congr_left
  intro c _
  exact pvar_affine c a b

theorem varMeans_affine (cs : List (List ℝ)) (hc : ∀ c ∈ cs, c ≠ []) (a b : ℝ) : varMeans (cs.map fun c => c.map fun x => a * x + b) = a ^ 2 * varMeans cs := by
  unfold varMeans
  rw [List.map_map, ← pvar_affine _ a b, List.map_map]
  congr 1
  apply List.map_congr_left
  intro c hcm
  exact mean_affine c (hc c hcm) a b

theorem varEstimate_affine (n : ℝ) (cs : List (List ℝ)) (hc : ∀ c ∈ cs, c ≠ []) (a b : ℝ) :
    varEstimate n (cs.map fun c => c.map fun x => a * x + b) = a ^ 2 * varEstimate n cs := by
  unfold varEstimate
  rw [within_affine, varMeans_affine cs hc]
  ring

theorem quot_scale (c x y : ℝ) (hc : 0 < c) : Fl.quot (c * x) (c * y) = Fl.quot x y := by
  unfold Fl.quot
  by_cases hy : y = 0
  · subst hy
    simp [hc, hc.ne', mul_pos_iff_of_pos_left]
  · rw [if_neg hy, if_neg (mul_ne_zero hc.ne' hy), mul_div_mul_left _ _ hc.ne']

/-- C64, shift and scale: replacing every sample `x` of parameter `p` by `a p * x + b p` (`a p ≠ 0`) changes neither the Gelman-Rubin statistics nor the Tz numbers. -/
theorem C64_affine (itime itime' : List Ens → List Fl) (chains : List Ens) (nd nw ns : Nat) (hr : Rect chains nd nw ns) (a b : Nat → ℝ) (ha : ∀ p, a p ≠ 0)
    (old old' : Option (List Fl)) (th th' : Thresholds) (out out' : ConvOut) (h : convergenceCalculate itime chains old th = .ok out)
    (h' : convergenceCalculate itime' (chains.map (affineEns a b)) old' th' = .ok out') : out'.gelmanrubin = out.gelmanrubin ∧ out'.tz = out.tz := by
  have f := convFacts hr h
  have f' := convFacts (rect_affine hr a b) h'
  have hc : ∀ p, p < nd → ∀ c ∈ parChains chains p, c ≠ [] := by
    intro p hp c hcm
    obtain ⟨e, he, rfl⟩ := List.mem_map.1 hcm
    intro h0
    have := hr.samples he hp
    rw [h0] at this
    have := f.steps
    simp only [List.length_nil] at *
    omega
  constructor
  · rw [f.gr, f'.gr]
    apply List.map_congr_left
    intro p hp
    rw [List.mem_range] at hp
    rw [parChains_affine hr a b hp]
    unfold grOf
    rw [varEstimate_affine _ _ (hc p hp), within_affine, quot_scale _ _ _ (by have := ha p; positivity)]
  · rw [f.tz, f'.tz, List.length_map]
    have hv : ((List.range nd).map (parChains (chains.map (affineEns a b)))).map (vbzOf ((nw * ns : Nat) : ℝ) chains.length) =
        ((List.range nd).map (parChains chains)).map (vbzOf ((nw * ns : Nat) : ℝ) chains.length) := by
      rw [List.map_map, List.map_map]
      apply List.map_congr_left
      intro p hp
      rw [List.mem_range] at hp
      simp only [Function.comp]
      rw [parChains_affine hr a b hp]
      unfold vbzOf
      rw [varEstimate_affine _ _ (hc p hp)]
      have : bzOf ((nw * ns : Nat) : ℝ) chains.length ((parChains chains p).map fun c => c.map fun x => a p * x + b p) =
          a p ^ 2 * bzOf ((nw * ns : Nat) : ℝ) chains.length (parChains chains p) := by
        unfold bzOf
        rw [varMeans_affine _ (hc p hp)]
        ring
      rw [this, quot_scale _ _ _ (by have := ha p; positivity)]
    unfold tzOf
    rw [hv]

theorem rect_perm {chains chains' : List Ens} {nd nw ns : Nat} (h : Rect chains nd nw ns) (hp : chains.Perm chains') : Rect chains' nd nw ns :=
  fun e he => h e (hp.mem_iff.2 he)

/-- C64, order of the chains: reordering the ensembles changes neither the Gelman-Rubin statistics nor the Tz numbers. -/
theorem C64_order (itime itime' : List Ens → List Fl) (chains chains' : List Ens) (nd nw ns : Nat) (hr : Rect chains nd nw ns) (hp : chains.Perm chains')
    (old old' : Option (List Fl)) (th th' : Thresholds) (out out' : ConvOut) (h : convergenceCalculate itime chains old th = .ok out)
    (h' : convergenceCalculate itime' chains' old' th' = .ok out') : out'.gelmanrubin = out.gelmanrubin ∧ out'.tz = out.tz := by
  have f := convFacts hr h
  have f' := convFacts (rect_perm hr hp) h'
  have hw : ∀ p, within (parChains chains' p) = within (parChains chains p) := fun p => (mean_perm ((hp.map _).map _)).symm
  have hv : ∀ p, varMeans (parChains chains' p) = varMeans (parChains chains p) := fun p => (pvar_perm ((hp.map _).map _)).symm
  have he : ∀ n p, varEstimate n (parChains chains' p) = varEstimate n (parChains chains p) := by intro n p; unfold varEstimate; rw [hw, hv]
  constructor
  · rw [f.gr, f'.gr]
    apply List.map_congr_left
    intro p _
    unfold grOf
    rw [he, hw]
  · rw [f.tz, f'.tz, hp.length_eq]
    have : ((List.range nd).map (parChains chains')).map (vbzOf ((nw * ns : Nat) : ℝ) chains'.length) =
        ((List.range nd).map (parChains chains)).map (vbzOf ((nw * ns : Nat) : ℝ) chains'.length) := by
      rw [List.map_map, List.map_map]
      apply List.map_congr_left
      intro p _
      simp only [Function.comp]
      unfold vbzOf bzOf
      rw [he, hv]
    unfold tzOf
    rw [this]

/-- C64, value and bound: for a parameter that is not constant in every chain, the statistic is a number `g ≥ 0` with `g² = 1 - 1/n + V/W` (`n` samples per chain, `V` the variance
of the chain means, `W` the mean of the chain variances); `g²` is at least `1 - 1/n`, with equality exactly if all chain means agree. -/
theorem C64_bound (itime : List Ens → List Fl) (chains : List Ens) (nd nw ns : Nat) (hr : Rect chains nd nw ns) (old : Option (List Fl)) (th : Thresholds) (out : ConvOut)
    (h : convergenceCalculate itime chains old th = .ok out) (p : Nat) (hp : p < nd)
    (hvar : ∃ e ∈ chains, ∃ x ∈ (e.getD p []).flatten, ∃ y ∈ (e.getD p []).flatten, x ≠ y) :
    ∃ g : ℝ, out.gelmanrubin[p]? = some (.fin g) ∧ 0 ≤ g ∧
      g ^ 2 = 1 - 1 / (nw * ns) + pvar (chains.map fun e => mean (e.getD p []).flatten) / mean (chains.map fun e => pvar (e.getD p []).flatten) ∧
      1 - 1 / ((nw : ℝ) * ns) ≤ g ^ 2 ∧
      (g ^ 2 = 1 - 1 / (nw * ns) ↔ ∀ e ∈ chains, ∀ e' ∈ chains, mean (e.getD p []).flatten = mean (e'.getD p []).flatten) := by
  have f := convFacts hr h
  have hW : within (parChains chains p) = mean (chains.map fun e => pvar (e.getD p []).flatten) := by unfold within parChains; rw [List.map_map]; rfl
  have hV : varMeans (parChains chains p) = pvar (chains.map fun e => mean (e.getD p []).flatten) := by unfold varMeans parChains; rw [List.map_map]; rfl
  have hWpos : 0 < within (parChains chains p) := by
    rw [hW]
    have hnn : ∀ z ∈ chains.map (fun e => pvar (e.getD p []).flatten), 0 ≤ z := by
      intro z hz; obtain ⟨e, _, rfl⟩ := List.mem_map.1 hz; exact pvar_nonneg _
    rcases lt_or_eq_of_le (mean_nonneg _ hnn) with h1 | h1
    · exact h1
    · exfalso
      obtain ⟨e, he, x, hx, y, hy, hxy⟩ := hvar
      have := mean_eq_zero _ hnn h1.symm _ (List.mem_map.2 ⟨e, he, rfl⟩)
      exact hxy ((pvar_eq_zero_iff _).1 this x hx y hy)
  have hVnn : 0 ≤ varMeans (parChains chains p) := pvar_nonneg _
  set n : ℝ := ((nw * ns : Nat) : ℝ) with hn
  have hn1 : 1 < n := by rw [hn]; exact_mod_cast f.steps
  have hn0 : n ≠ 0 := by linarith
  have hcast : (nw : ℝ) * ns = n := by rw [hn]; push_cast; ring
  have hq : varEstimate n (parChains chains p) / within (parChains chains p) = 1 - 1 / n + varMeans (parChains chains p) / within (parChains chains p) := by
    unfold varEstimate
    field_simp
  have h1n : 0 ≤ 1 - 1 / n := by
    rw [sub_nonneg, div_le_one (by linarith)]; exact hn1.le
  have hqnn : 0 ≤ varEstimate n (parChains chains p) / within (parChains chains p) := by
    rw [hq]; have := div_nonneg hVnn hWpos.le; linarith
  have hsq : Real.sqrt (varEstimate n (parChains chains p) / within (parChains chains p)) ^ 2 = 1 - 1 / n + varMeans (parChains chains p) / within (parChains chains p) := by
    rw [Real.sq_sqrt hqnn, hq]
  refine ⟨Real.sqrt (varEstimate n (parChains chains p) / within (parChains chains p)), ?_, Real.sqrt_nonneg _, ?_, ?_, ?_⟩
  · rw [f.gr, List.getElem?_map, List.getElem?_range hp]
    rw [Option.map_some]
    unfold grOf Fl.quot
    rw [if_neg hWpos.ne', ← hn]
    show some (if _ then _ else _) = _
    rw [if_pos hqnn]
  · rw [hsq, hcast, hV, hW]
  · rw [hsq, hcast]
    have := div_nonneg hVnn hWpos.le
    linarith
  · rw [hsq, hcast]
    constructor
    · intro h0
      have h0' : varMeans (parChains chains p) / within (parChains chains p) = 0 := by linarith
      have hv0 : varMeans (parChains chains p) = 0 := by
        rcases div_eq_zero_iff.1 h0' with h2 | h2
        · exact h2
        · exact absurd h2 hWpos.ne'
      rw [hV] at hv0
      intro e he e' he'
      exact (pvar_eq_zero_iff _).1 hv0 _ (List.mem_map.2 ⟨e, he, rfl⟩) _ (List.mem_map.2 ⟨e', he', rfl⟩)
    · intro h0
      have hv0 : varMeans (parChains chains p) = 0 := by
        rw [hV, pvar_eq_zero_iff]
        intro x hx y hy
        obtain ⟨e, he, rfl⟩ := List.mem_map.1 hx
        obtain ⟨e', he', rfl⟩ := List.mem_map.1 hy
        exact h0 e he e' he'
      rw [hv0]; simp

/-- Two ensembles, one parameter, one walker, two steps. -/
def twoChains : List Ens := [[[[0, 2]]], [[[1, 3]]]]

theorem twoChains_ok (old : Option (List Fl)) (th : Thresholds) (hold : ∀ l, old = some l → l ≠ []) :
    ∃ out, convergenceCalculate (fun _ => [.fin 1]) twoChains old th = .ok out := by
  have h1 : ∃ a, Fl.pyMin (tzOf ((2 : Nat) : ℝ) ((2 : Nat) : ℝ) ((List.range 1).map (parChains twoChains))) = .ok a := by
    unfold tzOf
    simp only
    split
    · split
      · exact ⟨_, rfl⟩
      · rename_i _ h2
        cases h3 : (List.map (Fl.scale (((2 : Nat) : ℝ) * ((2 : Nat) : ℝ)))
            ((((List.range 1).map (parChains twoChains)).map (vbzOf ((2 : Nat) : ℝ) ((2 : Nat) : ℝ))).filter fun v => decide (v.lt (.fin 1)))) with
        | nil => exact absurd h3 h2
        | cons x l => exact ⟨_, rfl⟩
    · exact ⟨_, rfl⟩
  obtain ⟨a, ha⟩ := h1
  have h4 : ∃ d, Fl.npMax (archangeOf [.fin 1] old) = .ok d := by
    unfold Fl.npMax
    split
    · exact ⟨_, rfl⟩
    · cases old with
      | none => exact ⟨_, rfl⟩
      | some l =>
        cases l with
        | nil => exact absurd rfl (hold [] rfl)
        | cons x l => exact ⟨_, rfl⟩
  obtain ⟨d, hd⟩ := h4
  have h3 : ∃ c, Fl.npMin ([Fl.fin 1].map (Fl.div (.fin (((2 : Nat) : ℝ) * ((2 : Nat) : ℝ))))) = .ok c := by
    unfold Fl.npMin
    split
    · exact ⟨_, rfl⟩
    · exact ⟨_, rfl⟩
  obtain ⟨c, hc⟩ := h3
  unfold convergenceCalculate
  show ∃ out, (if ¬ 1 < 2 then _ else _) = _
  rw [if_neg (by norm_num)]
  show ∃ out, (Fl.pyMin (tzOf ((2 : Nat) : ℝ) ((2 : Nat) : ℝ) ((List.range 1).map (parChains twoChains))) >>= _) = _
  rw [ha]
  show ∃ out, (Fl.npMin ([Fl.fin 1].map (Fl.div (.fin (((2 : Nat) : ℝ) * ((2 : Nat) : ℝ))))) >>= _) = _
  rw [hc]
  show ∃ out, (Fl.npMax (archangeOf [.fin 1] old) >>= _) = _
  rw [hd]
  exact ⟨_, rfl⟩

/-- Non-vacuity of `C64_affine`, `C64_order` and `C64_bound`. -/
example (th : Thresholds) : Rect twoChains 1 1 2 ∧ (∃ out, convergenceCalculate (fun _ => [.fin 1]) twoChains none th = .ok out) ∧
    ∃ e ∈ twoChains, ∃ x ∈ (e.getD 0 []).flatten, ∃ y ∈ (e.getD 0 []).flatten, x ≠ y := by
  refine ⟨?_, twoChains_ok _ _ (by simp), [[[0, 2]]], by simp [twoChains], 0, by simp, 2, by simp, by norm_num⟩
  intro e he
  simp only [twoChains, List.mem_cons, List.not_mem_nil, or_false] at he
  rcases he with rfl | rfl <;> simp

/-! ## C65 -/

/-- C65 is false: if for every parameter the variance of the chain means is at most `W/n`, the value expected from independent draws (or smaller), then all Tz numbers are discarded,
`-1` takes their place, and the criterion fails for every `minTz ≥ -1`. -/
theorem C65_good_mixing_violated (itime : List Ens → List Fl) (chains : List Ens) (nd nw ns : Nat) (hr : Rect chains nd nw ns) (hm : 2 ≤ chains.length)
    (old : Option (List Fl)) (th : Thresholds) (out : ConvOut) (h : convergenceCalculate itime chains old th = .ok out)
    (hmix : ∀ p, p < nd → nw * ns * pvar (chains.map fun e => mean (e.getD p []).flatten) ≤ mean (chains.map fun e => pvar (e.getD p []).flatten)) :
    out.tz = [.fin (-1)] ∧ (∀ x : ℝ, th.minTz = .fin x → -1 ≤ x → out.ismixed = false) := by
  have f := convFacts hr h
  have hm1 : (chains.length : ℝ) ≠ 1 := by
    have : (2 : ℝ) ≤ chains.length := by exact_mod_cast hm
    linarith
  have htz : out.tz = [.fin (-1)] := by
    rw [f.tz]
    unfold tzOf
    rw [if_pos hm1]
    have hnil : ((((List.range nd).map (parChains chains)).map (vbzOf ((nw * ns : Nat) : ℝ) chains.length)).filter fun v => decide (v.lt (.fin 1))) = [] := by
      rw [List.filter_eq_nil_iff]
      intro v hv
      rw [List.map_map, List.mem_map] at hv
      obtain ⟨p, hp, rfl⟩ := hv
      rw [List.mem_range] at hp
      have hW : within (parChains chains p) = mean (chains.map fun e => pvar (e.getD p []).flatten) := by unfold within parChains; rw [List.map_map]; rfl
      have hV : varMeans (parChains chains p) = pvar (chains.map fun e => mean (e.getD p []).flatten) := by unfold varMeans parChains; rw [List.map_map]; rfl
      have hmp := hmix p hp
      rw [← hW, ← hV] at hmp
      have hVnn : 0 ≤ varMeans (parChains chains p) := pvar_nonneg _
      rw [decide_eq_true_eq]
      simp only [Function.comp, vbzOf, Fl.quot]
      have hn1 : (2 : ℝ) ≤ ((nw * ns : Nat) : ℝ) := by exact_mod_cast f.steps
      have hcast : (nw : ℝ) * ns = ((nw * ns : Nat) : ℝ) := by push_cast; ring
      rw [hcast] at hmp
      generalize ((nw * ns : Nat) : ℝ) = n at *
      have hM : (2 : ℝ) ≤ chains.length := by exact_mod_cast hm
      generalize (chains.length : ℝ) = m at *
      generalize hVe : varMeans (parChains chains p) = V at *
      generalize hWe : within (parChains chains p) = W at *
      have hest : varEstimate n (parChains chains p) = (1 - 1 / n) * W + V := by
        unfold varEstimate
        rw [hVe, hWe]
        have : n ≠ 0 := by linarith
        field_simp
      have hbz : bzOf n m (parChains chains p) = V / (m - 1) * n := by unfold bzOf; rw [hVe]
      have hWnn : 0 ≤ W := le_trans (mul_nonneg (by linarith) hVnn) hmp
      have hn0 : 0 ≤ 1 - 1 / n := by rw [sub_nonneg, div_le_one (by linarith)]; linarith
      have hestnn : 0 ≤ (1 - 1 / n) * W + V := by positivity
      split
      · split
        · exact id
        · split
          · exact id
          · rename_i h2 h3
            rw [hest] at h2 h3
            exact fun _ => h3 (lt_of_le_of_ne hestnn (Ne.symm h2))
      · rename_i hb
        rw [hbz] at hb
        rw [hest, hbz]
        show ¬ _ < _
        rw [not_lt]
        have hVpos : 0 < V := by
          rcases lt_or_eq_of_le hVnn with h1 | h1
          · exact h1
          · exact absurd (by rw [← h1]; simp) hb
        have hb' : 0 < V / (m - 1) * n := mul_pos (div_pos hVpos (by linarith)) (by linarith)
        rw [le_div_iff₀ hb', one_mul]
        have h1 : V / (m - 1) * n ≤ V * n := by
          apply mul_le_mul_of_nonneg_right _ (by linarith)
          rw [div_le_iff₀ (by linarith)]
          nlinarith
        have h2 : V * n ≤ (1 - 1 / n) * W + V := by
          have h3 : (1 - 1 / n) * (n * V) ≤ (1 - 1 / n) * W := mul_le_mul_of_nonneg_left hmp hn0
          have h4 : (1 - 1 / n) * (n * V) = n * V - V := by
            have : n ≠ 0 := by linarith
            field_simp
          linarith
        linarith
    simp only
    rw [hnil]
    simp
  refine ⟨htz, ?_⟩
  intro x hx hx1
  obtain ⟨a, b, c, d, h1, _, _, _, h5⟩ := f.mixed
  rw [htz] at h1
  cases h1
  rw [Bool.eq_false_iff]
  intro hmx
  have := (h5.1 hmx).1
  rw [if_pos hm1, hx] at this
  have : x < -1 := this
  linarith

/-- Non-vacuity of `C65_good_mixing_violated`: two chains with equal means. -/
example : ∃ chains : List Ens, Rect chains 1 1 2 ∧ 2 ≤ chains.length ∧
    (∀ p, p < 1 → ((1 : Nat) : ℝ) * (2 : Nat) * pvar (chains.map fun e => mean (e.getD p []).flatten) ≤ mean (chains.map fun e => pvar (e.getD p []).flatten)) ∧
    ∀ th, ∃ out, convergenceCalculate (fun _ => [.fin 1]) chains none th = .ok out := by
  refine ⟨[[[[0, 2]]], [[[0, 2]]]], ?_, by simp, ?_, ?_⟩
  · intro e he
    simp only [List.mem_cons, List.not_mem_nil, or_false, or_self] at he
    subst he; simp
  · intro p hp
    have : p = 0 := by omega
    subst this
    norm_num [pvar, mean]
  · intro th
    have h0 : ∀ l : List Fl, l ≠ [] → ∃ a, Fl.npMin l = .ok a := by
      intro l hl
      unfold Fl.npMin
      split
      · exact ⟨_, rfl⟩
      · cases l with
        | nil => exact absurd rfl hl
        | cons x l => exact ⟨_, rfl⟩
    have h1 : ∀ l : List Fl, l ≠ [] → ∃ a, Fl.npMax l = .ok a := by
      intro l hl
      unfold Fl.npMax
      split
      · exact ⟨_, rfl⟩
      · cases l with
        | nil => exact absurd rfl hl
        | cons x l => exact ⟨_, rfl⟩
    have h2 : ∀ l : List Fl, l ≠ [] → ∃ a, Fl.pyMin l = .ok a := by
      intro l hl
      cases l with
      | nil => exact absurd rfl hl
      | cons x l => exact ⟨_, rfl⟩
    unfold convergenceCalculate
    show ∃ out, (if ¬ 1 < 2 then _ else _) = _
    rw [if_neg (by norm_num)]
    simp only
    generalize htz : tzOf _ _ _ = tz
    have htzne : tz ≠ [] := by
      rw [← htz]; unfold tzOf; split
      · simp only; split
        · simp
        · assumption
      · simp
    obtain ⟨a, ha⟩ := h2 tz htzne
    rw [ha]
    generalize hafe : List.map (Fl.div _) _ = af
    obtain ⟨c, hc⟩ := h0 af (by rw [← hafe]; simp)
    generalize hare : archangeOf _ _ = ar
    obtain ⟨d, hd⟩ := h1 ar (by rw [← hare]; simp [archangeOf])
    rw [hc, hd]
    exact ⟨_, rfl⟩

/-- C65 where it does hold (missing: the case above): for a parameter that is kept, the Tz number is `m·n·(estimated variance)/(n·V/(m-1))`; with the mean chain variance `W` and the sizes
fixed, a smaller positive variance of the means gives a larger Tz number, as long as the parameter is kept. -/
theorem C65_monotone_partial (n m : ℝ) (hn : 1 < n) (hm : 1 < m) (cs cs' : List (List ℝ)) (hW : within cs = within cs') (hWpos : 0 < within cs) (hV : 0 < varMeans cs)
    (hle : varMeans cs ≤ varMeans cs') (hk : (vbzOf n m cs).lt (.fin 1)) :
    (vbzOf n m cs').lt (.fin 1) ∧ ∃ t t' : ℝ, tzOf n m [cs] = [.fin t] ∧ tzOf n m [cs'] = [.fin t'] ∧ t' ≤ t := by
  have key : ∀ V : ℝ, 0 < V → ((1 - 1 / n) * within cs + 1 / n * (V * n)) / (V / (m - 1) * n) = (m - 1) / n * ((1 - 1 / n) * (within cs / V) + 1) := by
    intro V hV0
    have h1 : n ≠ 0 := by linarith
    have h2 : m - 1 ≠ 0 := by linarith
    field_simp
  have hV' : 0 < varMeans cs' := lt_of_lt_of_le hV hle
  have hb : ∀ V : ℝ, 0 < V → V / (m - 1) * n ≠ 0 := by
    intro V hV0
    exact (mul_pos (div_pos hV0 (by linarith)) (by linarith)).ne'
  have e1 : vbzOf n m cs = .fin ((m - 1) / n * ((1 - 1 / n) * (within cs / varMeans cs) + 1)) := by
    unfold vbzOf varEstimate bzOf Fl.quot
    rw [if_neg (hb _ hV), key _ hV]
  have e2 : vbzOf n m cs' = .fin ((m - 1) / n * ((1 - 1 / n) * (within cs / varMeans cs') + 1)) := by
    unfold vbzOf varEstimate bzOf Fl.quot
    rw [if_neg (hb _ hV'), ← hW, key _ hV']
  have hlev : (m - 1) / n * ((1 - 1 / n) * (within cs / varMeans cs') + 1) ≤ (m - 1) / n * ((1 - 1 / n) * (within cs / varMeans cs) + 1) := by
    apply mul_le_mul_of_nonneg_left _ (div_nonneg (by linarith) (by linarith))
    have h1 : within cs / varMeans cs' ≤ within cs / varMeans cs := div_le_div_of_nonneg_left hWpos.le hV hle
    have h2 : 0 ≤ 1 - 1 / n := by rw [sub_nonneg, div_le_one (by linarith)]; linarith
    have := mul_le_mul_of_nonneg_left h1 h2
    linarith
  rw [e1] at hk
  have hk1 : (m - 1) / n * ((1 - 1 / n) * (within cs / varMeans cs) + 1) < 1 := hk
  have hk2 : (m - 1) / n * ((1 - 1 / n) * (within cs / varMeans cs') + 1) < 1 := lt_of_le_of_lt hlev hk1
  refine ⟨by rw [e2]; exact hk2, m * n * ((m - 1) / n * ((1 - 1 / n) * (within cs / varMeans cs) + 1)),
    m * n * ((m - 1) / n * ((1 - 1 / n) * (within cs / varMeans cs') + 1)), ?_, ?_, ?_⟩
  · unfold tzOf
    rw [if_pos (by linarith)]
    have hlt : (Fl.fin ((m - 1) / n * ((1 - 1 / n) * (within cs / varMeans cs) + 1))).lt (.fin 1) := hk1
    simp only [List.map_cons, List.map_nil, e1, List.filter_cons, hlt, decide_true, if_true, List.filter_nil, Fl.scale]
    simp
  · unfold tzOf
    rw [if_pos (by linarith)]
    have hlt : (Fl.fin ((m - 1) / n * ((1 - 1 / n) * (within cs / varMeans cs') + 1))).lt (.fin 1) := hk2
    simp only [List.map_cons, List.map_nil, e2, List.filter_cons, hlt, decide_true, if_true, List.filter_nil, Fl.scale]
    simp
  · exact mul_le_mul_of_nonneg_left hlev (by nlinarith)

/-- Non-vacuity of `C65_monotone_partial`: means 0, 4 and 0, 6, variances 1, `n = 4`, two chains. -/
example : let cs : List (List ℝ) := [[-1, 1, -1, 1], [3, 5, 3, 5]]; let cs' : List (List ℝ) := [[-1, 1, -1, 1], [5, 7, 5, 7]]
    within cs = within cs' ∧ 0 < within cs ∧ 0 < varMeans cs ∧ varMeans cs ≤ varMeans cs' ∧ (vbzOf 4 2 cs).lt (.fin 1) := by
  have w1 : within [[-1, 1, -1, 1], [3, 5, 3, 5]] = 1 := by norm_num [within, pvar, mean]
  have w2 : within [[-1, 1, -1, 1], [5, 7, 5, 7]] = 1 := by norm_num [within, pvar, mean]
  have v1 : varMeans [[-1, 1, -1, 1], [3, 5, 3, 5]] = 4 := by norm_num [varMeans, pvar, mean]
  have v2 : varMeans [[-1, 1, -1, 1], [5, 7, 5, 7]] = 9 := by norm_num [varMeans, pvar, mean]
  refine ⟨by rw [w1, w2], by rw [w1]; norm_num, by rw [v1]; norm_num, by rw [v1, v2]; norm_num, ?_⟩
  unfold vbzOf varEstimate bzOf Fl.quot
  rw [w1, v1, if_neg (by norm_num)]
  show _ < _
  norm_num

/-! ## C66, first part -/

theorem foldl_maxStep_pos (l : List Fl) : l.foldl Fl.maxStep .pos = .pos := by
  induction l with
  | nil => rfl
  | cons a l ih =>
    rw [List.foldl_cons]
    have : Fl.maxStep .pos a = .pos := by unfold Fl.maxStep; rw [if_neg]; cases a <;> exact id
    rw [this, ih]

/-- What a completed call has computed, without assumptions on shapes. -/
theorem conv_raw {itime : List Ens → List Fl} {chains : List Ens} {old : Option (List Fl)} {th : Thresholds} {out : ConvOut} (h : convergenceCalculate itime chains old th = .ok out) :
    out.autocorrelation = itime chains ∧ out.archange = archangeOf (itime chains) old ∧ ∃ a b c d, Fl.pyMin out.tz = .ok a ∧ Fl.pyMax out.gelmanrubin = .ok b ∧ Fl.npMin out.afactor = .ok c ∧
      Fl.npMax out.archange = .ok d ∧ (out.ismixed = true → b.lt th.maxGR ∧ th.minAfactor.lt c ∧ d.lt th.maxArchange) := by
  cases chains with
  | nil => cases h
  | cons e0 es =>
    unfold convergenceCalculate at h
    simp only at h
    split at h
    · cases h
    · generalize htz : tzOf _ _ _ = tz at h
      generalize hgr : List.map (grOf _) _ = gr at h
      generalize haf : List.map (Fl.div _) _ = af at h
      generalize har : archangeOf _ _ = ar at h
      rcases ha : Fl.pyMin tz with e | a
      · rw [ha] at h; cases h
      rcases hb : Fl.pyMax gr with e | b
      · rw [ha, hb] at h; cases h
      rcases hc : Fl.npMin af with e | c
      · rw [ha, hb, hc] at h; cases h
      rcases hd : Fl.npMax ar with e | d
      · rw [ha, hb, hc, hd] at h; cases h
      rw [ha, hb, hc, hd] at h
      cases h
      refine ⟨rfl, rfl, a, b, c, d, ha, hb, hc, hd, ?_⟩
      simp only [decide_eq_true_eq]
      exact fun h => h.2

/-- C66, the first computed check: with the initial "old autocorrelation" 0, `convergence_calculate` never reports mixed chains, whatever the chains, the autocorrelation times and the
thresholds. -/
theorem C66_first (itime : List Ens → List Fl) (chains : List Ens) (th : Thresholds) (out : ConvOut) (h : convergenceCalculate itime chains none th = .ok out) : out.ismixed = false := by
  obtain ⟨_, har, a, b, c, d, _, _, _, h4, h5⟩ := conv_raw h
  rw [har] at h4
  have hd : d = .pos ∨ d = .nan := by
    unfold Fl.npMax at h4
    split at h4
    · cases h4; exact .inr rfl
    · rename_i hnan
      have hall : ∀ x ∈ archangeOf (itime chains) none, x = .pos := by
        intro x hx
        have hx0 := hx
        unfold archangeOf at hx
        obtain ⟨y, _, rfl⟩ := List.mem_map.1 hx
        cases y with
        | fin z =>
          have : ((Fl.fin z).sub (.fin 0)).abs = .fin |z| := by
            show (Fl.fin (z + -0)).abs = _
            simp [Fl.abs]
          simp only [this, Fl.div, Fl.quot, if_true] at hx0 ⊢
          by_cases hz : |z| = 0
          · rw [if_pos hz] at hx0; exact absurd hx0 hnan
          · rw [if_neg hz, if_pos (lt_of_le_of_ne (abs_nonneg z) (Ne.symm hz))]
        | pos => show (if (0 : ℝ) ≤ 0 then Fl.pos else Fl.neg) = _; rw [if_pos le_rfl]
        | neg => show (if (0 : ℝ) ≤ 0 then Fl.pos else Fl.neg) = _; rw [if_pos le_rfl]
        | nan => exact absurd hx0 hnan
      rcases hl : archangeOf (itime chains) none with _ | ⟨x, l⟩
      · rw [hl] at h4; cases h4
      · rw [hl] at h4 hall
        cases h4
        rw [hall x (by simp), foldl_maxStep_pos]
        exact .inl rfl
  rw [Bool.eq_false_iff]
  intro hm
  have := (h5 hm).2.2
  rcases hd with rfl | rfl
  · revert this; cases th.maxArchange <;> exact id
  · revert this; cases th.maxArchange <;> exact id

/-- Non-vacuity of `C66_first`. -/
example (th : Thresholds) : ∃ out, convergenceCalculate (fun _ => [.fin 1]) twoChains none th = .ok out := twoChains_ok _ _ (by simp)

end Radvel
