import Verif.Model.Tables
import Verif.Lemmas.Chains
import Verif.Lemmas.Basis
import Mathlib.Tactic.Linarith
import Mathlib.Tactic.Ring

/-! Lemmas on `from_synth` for tables. -/

namespace Radvel
open Real

theorem setColumns_miss {n : Nat} (m : Nat) (rows : Fin n → PName → Option ℝ) (l : List (PName × ((PName → Option ℝ) → Option ℝ))) (k : Key) :
    ∀ out : Frame n, (∀ x ∈ l, k ≠ .orb x.1 m) → (setColumns m rows l out).get? k = out.get? k := by
  induction l with
  | nil => intro out _; rfl
  | cons a t ih =>
    intro out h
    have h1 := h a (List.mem_cons_self ..)
    have := ih (out.set (.orb a.1 m) (fun j => a.2 (rows j))) (fun x hx => h x (List.mem_cons_of_mem _ hx))
    unfold setColumns at this ⊢
    rw [List.foldl_cons, this, Dict.get?_set_ne _ _ (Ne.symm h1)]

theorem setColumns_hit {n : Nat} (m : Nat) (rows : Fin n → PName → Option ℝ) (l : List (PName × ((PName → Option ℝ) → Option ℝ))) (hl : (l.map Prod.fst).Nodup) (x : PName) (g : (PName → Option ℝ) → Option ℝ)
    (hx : (x, g) ∈ l) : ∀ out : Frame n, (setColumns m rows l out).get? (.orb x m) = some (fun j => g (rows j)) := by
  induction l with
  | nil => simp at hx
  | cons a t ih =>
    intro out
    rw [List.map_cons, List.nodup_cons] at hl
    rcases List.mem_cons.1 hx with rfl | hx
    · have := setColumns_miss m rows t (.orb x m) (out.set (.orb x m) (fun j => g (rows j))) (by
        intro y hy he
        injection he with he
        exact hl.1 (List.mem_map.2 ⟨y, hy, he.symm⟩))
      unfold setColumns at this ⊢
      rw [List.foldl_cons, this]
      simp
    · exact ih hl.2 hx _

theorem fromFormulas_names (nb : BasisName) : (fromFormulas nb).map Prod.fst = newNames nb := by cases nb <;> rfl

theorem timeperiCell_eq (tp per e om : ℝ) (h0 : -1 < e) (h1 : e ≤ 1) : timeperiCell (some tp) (some per) (some e) (some om) = some (timeperiToTimetrans tp per e om false) := by
  unfold timeperiCell timeperiToTimetrans
  simp only
  rw [if_neg (by have : 0 ≤ (1 - e) / (1 + e) := div_nonneg (by linarith) (by linarith)
                 linarith)]
  rcases lt_or_eq_of_le h1 with h | rfl
  · rw [if_neg (by linarith)]
    rfl
  · simp

theorem timeperiCell_nan (tp : Option ℝ) (per e om : ℝ) (h1 : 1 < e) : timeperiCell tp (some per) (some e) (some om) = none := by
  unfold timeperiCell
  cases tp with
  | none => rfl
  | some tp =>
    simp only
    rw [if_pos]
    exact div_neg_of_neg_of_pos (by linarith) (by linarith)

theorem timeperiCell_tp_nan (per e om : Option ℝ) : timeperiCell none per e om = none := rfl

theorem timetransCell_back (tc per e om : ℝ) : (timetransCell tc per e om).bind (fun tp => timeperiCell (some tp) (some per) (some e) (some om)) = if (1 - e) / (1 + e) < 0 then none else some tc := by
  unfold timetransCell timeperiCell
  split_ifs with h
  · rfl
  · simp only [Option.bind_some, if_neg h, sub_add_cancel]

theorem timeperi_timetrans (tc per e om : ℝ) : timeperiToTimetrans (timetransToTimeperi tc per e om) per e om false = tc := by
  unfold timeperiToTimetrans timetransToTimeperi
  split_ifs <;> simp_all

/-- The formulas on the cells of an orbit. -/
theorem fromFormulas_val (nb : BasisName) (v : PName → Option ℝ) (s : Synth) (hv : ∀ x ∈ synthNames, v x = some (valOf s x)) (h0 : 0 ≤ s.e) (h1 : s.e ≤ 1) (hP : 0 < s.per) (hK : 0 < s.k) :
    ∀ x g, (x, g) ∈ fromFormulas nb → g v = some (valOf s x) := by
  have v1 : v .per = some s.per := hv _ (by decide)
  have v2 : v .tp = some s.tp := hv _ (by decide)
  have v3 : v .e = some s.e := hv _ (by decide)
  have v4 : v .w = some s.w := hv _ (by decide)
  have v5 : v .k = some s.k := hv _ (by decide)
  have t : tcCell v = some (valOf s .tc) := by
    unfold tcCell
    rw [v1, v2, v3, v4, timeperiCell_eq _ _ _ _ (by linarith) h1]
    rfl
  have q : sqrtCell (some s.e) = some √s.e := by unfold sqrtCell; simp [not_lt.2 h0]
  have lp : logCell (some s.per) = some (log s.per) := by unfold logCell; simp [not_le.2 hP]
  have lk : logCell (some s.k) = some (log s.k) := by unfold logCell; simp [not_le.2 hK]
  have key : ∀ a ∈ fromFormulas nb, a.2 v = some (valOf s a.1) := by
    cases nb <;> simp [fromFormulas, t, v1, v3, v4, v5, q, lp, lk, mulCell] <;> simp [valOf]
  exact fun x g hg => key _ hg

theorem fromPlanet_ok {n : Nat} (attr : Option (List PName)) (nb : BasisName) (f : Frame n) (i : Nat) (hcols : ∀ x ∈ synthNames, Key.orb x (i + 1) ∈ f.keys)
    (ha : looksAtNames nb = false ∨ ∃ l, attr = some l ∧ PName.tp ∈ l) (out : Frame n) :
    f.fromPlanet attr nb true out i = .ok (setColumns (i + 1) (f.cell (i + 1)) (fromFormulas nb) out) := by
  have h : ∀ x ∈ synthNames, f.has (.orb x (i + 1)) = true := fun x hx => (Dict.has_iff _ _).2 (hcols x hx)
  have h1 := h .per (by decide)
  have h2 := h .tp (by decide)
  have h3 := h .e (by decide)
  have h4 := h .w (by decide)
  have h5 := h .k (by decide)
  unfold Frame.fromPlanet
  simp only [h1, h2, h3, h4, h5, List.all_cons, List.all_nil, Bool.and_self, if_true, dropColumns]
  by_cases hb : nb = .perTpEWK
  · subst hb; simp [fromFormulas, setColumns]
  · rw [if_neg hb]
    rcases hl : looksAtNames nb with _ | _
    · simp
    · rcases ha with ha | ⟨l, rfl, hm⟩
      · rw [hl] at ha; simp at ha
      · simp [hm]

theorem Frame.fromSynth_spec {n : Nat} (attr : Option (List PName)) (nb : BasisName) (f : Frame n) (ha : looksAtNames nb = false ∨ ∃ l, attr = some l ∧ PName.tp ∈ l) : ∀ N,
    (∀ i < N, ∀ x ∈ synthNames, Key.orb x (i + 1) ∈ f.keys) → ∃ g, f.fromSynth attr nb true N = .ok g ∧
      (∀ i < N, ∀ x h, (x, h) ∈ fromFormulas nb → g.get? (.orb x (i + 1)) = some (fun j => h (f.cell (i + 1) j))) ∧
      ∀ k, (∀ i < N, ∀ x ∈ newNames nb, k ≠ .orb x (i + 1)) → g.get? k = f.get? k := by
  intro N
  induction N with
  | zero => intro _; exact ⟨f, rfl, by simp, fun _ _ => rfl⟩
  | succ N ih =>
    intro h
    obtain ⟨g, hg, h1, h2⟩ := ih (fun i hi => h i (by omega))
    have hs := fromPlanet_ok attr nb f N (h N (Nat.lt_succ_self _)) ha g
    refine ⟨setColumns (N + 1) (f.cell (N + 1)) (fromFormulas nb) g, ?_, ?_, ?_⟩
    · unfold Frame.fromSynth at hg ⊢
      rw [List.range_succ, List.foldlM_append, hg]
      change (f.fromPlanet attr nb true g N >>= pure) = _
      rw [hs]
      rfl
    · intro i hi x hh hx
      rcases Nat.lt_succ_iff_lt_or_eq.1 hi with hi | rfl
      · rw [setColumns_miss _ _ _ _ _ (by intro y _ he; injection he; omega)]
        exact h1 i hi x hh hx
      · exact setColumns_hit _ _ _ (by rw [fromFormulas_names]; exact newNames_nodup nb) x hh hx _
    · intro k hk
      rw [setColumns_miss _ _ _ _ _ (by
        intro y hy
        refine hk N (Nat.lt_succ_self _) y.1 ?_
        rw [← fromFormulas_names]
        exact List.mem_map_of_mem hy)]
      exact h2 k (fun i hi => hk i (by omega))

theorem get?_fillColumns {n : Nat} (p : Params ℝ) (k : Key) : ∀ c : Chain n, (fillColumns p c).get? k = match c.get? k with
    | some col => some col
    | none => (p.items.get? k).map (fun r _ => r.value) := by
  unfold fillColumns
  generalize p.items = l
  induction l with
  | nil => intro c; cases h : c.get? k <;> simp [h, Dict.get?]
  | cons a t ih =>
    intro c
    rw [List.foldl_cons, ih]
    by_cases ha : c.has a.1 = true
    · rw [if_pos ha]
      by_cases hk : a.1 = k
      · subst hk
        obtain ⟨v, hv⟩ := Dict.exists_get?_of_mem _ ((Dict.has_iff _ _).1 ha)
        simp [hv]
      · cases h : c.get? k <;> simp [Dict.get?, hk]
    · rw [if_neg ha]
      by_cases hk : a.1 = k
      · subst hk
        have : c.get? a.1 = none := by
          rw [Dict.get?_eq_none_iff, ← Dict.has_iff]
          exact ha
        simp [this, Dict.get?]
      · rw [Dict.get?_set_ne _ _ hk]
        cases h : c.get? k <;> simp [Dict.get?, hk]

end Radvel
