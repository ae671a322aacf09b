import Verif.Lemmas.Markers
import Mathlib.Data.List.Nodup

/-!
# C135 and C136: points drawn per instrument, their colours, and the next panel
-/

namespace Radvel

variable {α : Type}

theorem mtel_loop_once (data : List (String × α)) (rms : Option (Dict String String)) (ts : List String) (m m' : MTel α) (h : ts.foldlM (mtelStep data rms) m = .ok m') :
    ∃ ds, m'.drawn = m.drawn ++ ds ∧ ds.map Drawn.tel = ts ∧ ∀ d ∈ ds, d.pts = ptsOf data d.tel := by
  induction ts generalizing m with
  | nil =>
    cases Except.ok.inj h
    exact ⟨[], by simp, rfl, by simp⟩
  | cons t ts ih =>
    rw [List.foldlM_cons] at h
    rcases hs : mtelStep data rms m t with e | m1
    · rw [hs] at h; cases h
    · rw [hs] at h
      obtain ⟨ds, h1, h2, h3⟩ := ih m1 h
      unfold mtelStep at hs
      rcases hf : telFormat m.telfmts m.ci t with e | ⟨f, T, ci⟩
      · rw [hf] at hs; cases hs
      · rw [hf] at hs
        rcases hr : rmsOf rms t with e | r
        · simp only [hr] at hs; cases hs
        · simp only [hr] at hs
          cases Except.ok.inj hs
          refine ⟨⟨t, ptsOf data t, telplotKw t f r⟩ :: ds, ?_, by simp [h2], ?_⟩
          · rw [h1]; simp [ptsOf]
          · intro d hd
            rcases List.mem_cons.1 hd with rfl | hd
            · rfl
            · exact h3 d hd

theorem perm_by_tel (data : List (String × α)) (ts : List String) (hn : ts.Nodup) (h : ∀ p ∈ data, p.1 ∈ ts) :
    (ts.flatMap (fun t => (ptsOf data t).map (fun x => (t, x)))).Perm data := by
  induction ts generalizing data with
  | nil =>
    cases data with
    | nil => simp
    | cons p _ => exact absurd (h p (by simp)) (by simp)
  | cons t ts ih =>
    rw [List.flatMap_cons]
    have hnt : t ∉ ts := (List.nodup_cons.1 hn).1
    have e1 : (ptsOf data t).map (fun x => (t, x)) = data.filter (fun p => decide (p.1 = t)) := by
      unfold ptsOf
      rw [List.map_map]
      conv_rhs => rw [← List.map_id (data.filter (fun p => decide (p.1 = t)))]
      apply List.map_congr_left
      intro p hp
      have : p.1 = t := by simpa using (List.mem_filter.1 hp).2
      simp [← this]
    have e2 : ts.flatMap (fun t => (ptsOf data t).map (fun x => (t, x))) = ts.flatMap (fun u => (ptsOf (data.filter (fun p => !decide (p.1 = t))) u).map (fun x => (u, x))) := by
      apply List.flatMap_congr
      intro u hu
      have hne : u ≠ t := fun e => hnt (e ▸ hu)
      unfold ptsOf
      rw [List.filter_filter]
      congr 2
      apply List.filter_congr
      intro p _
      by_cases hp : p.1 = u
      · simp [hp, hne]
      · simp [hp]
    rw [e1, e2]
    refine List.Perm.trans ?_ (List.filter_append_perm (fun p => decide (p.1 = t)) data)
    refine List.Perm.append_left _ (ih _ (List.nodup_cons.1 hn).2 ?_)
    intro p hp
    obtain ⟨hp1, hp2⟩ := List.mem_filter.1 hp
    rcases List.mem_cons.1 (h p hp1) with e | e
    · simp [e] at hp2
    · exact e

/-- C135: whatever the formats, when `mtelplot` returns, every point has been drawn exactly once and with the instrument it belongs to, and no instrument is drawn twice. -/
theorem C135_once (data : List (String × α)) (T : Dict String Fmt) (rms : Option (Dict String String)) (m : MTel α) (h : mtelplot data T rms = .ok m) :
    (m.drawn.flatMap (fun d => d.pts.map (fun x => (d.tel, x)))).Perm data ∧ (m.drawn.map Drawn.tel).Nodup ∧ ∀ d ∈ m.drawn, d.pts ≠ [] := by
  obtain ⟨ds, h1, h2, h3⟩ := mtel_loop_once data rms _ _ _ h
  simp only [List.nil_append] at h1
  rw [h1]
  refine ⟨?_, by rw [h2]; exact uniqueTels_nodup _, ?_⟩
  · have e : ds.flatMap (fun d => d.pts.map (fun x => (d.tel, x))) = (ds.map Drawn.tel).flatMap (fun t => (ptsOf data t).map (fun x => (t, x))) := by
      rw [List.flatMap_map]
      apply List.flatMap_congr
      intro d hd
      rw [h3 d hd]
    rw [e, h2]
    exact perm_by_tel data _ (uniqueTels_nodup _) (fun p hp => (mem_uniqueTels _ _).2 (List.mem_map.2 ⟨p, hp, rfl⟩))
  · intro d hd
    rw [h3 d hd]
    have hm : d.tel ∈ uniqueTels (data.map Prod.fst) := h2 ▸ List.mem_map.2 ⟨d, hd, rfl⟩
    obtain ⟨p, hp, e⟩ := List.mem_map.1 ((mem_uniqueTels _ _).1 hm)
    have : p.2 ∈ ptsOf data d.tel := List.mem_map.2 ⟨p, List.mem_filter.2 ⟨hp, by simp [e]⟩, rfl⟩
    exact List.ne_nil_of_mem this

/-- C135: without RMS values the only failure is that the nine colours run out, and it happens exactly when more than nine instruments take one. -/
theorem C135_limit (data : List (String × α)) (T : Dict String Fmt) :
    (9 < (needing T (data.map Prod.fst)).length → mtelplot data T none = .error .indexError) ∧
    ((needing T (data.map Prod.fst)).length ≤ 9 → ∃ m, mtelplot data T none = .ok m) := by
  have h := mtel_loop data (uniqueTels (data.map Prod.fst)) (uniqueTels_nodup _) T 0 (by omega) []
  rw [Nat.zero_add, takesAll_unique] at h
  exact ⟨h.1, fun hl => let ⟨_, e, _⟩ := h.2 hl; ⟨_, e⟩⟩

theorem mtelplot_ok (data : List (String × α)) (T : Dict String Fmt) (m : MTel α) (h : mtelplot data T none = .ok m) :
    takesAll T (uniqueTels (data.map Prod.fst)) ≤ 9 ∧ m.drawn = drawAll data T 0 (uniqueTels (data.map Prod.fst)) ∧
    (∀ u ∉ uniqueTels (data.map Prod.fst), m.telfmts.get? u = T.get? u) ∧
    ∀ l t r, uniqueTels (data.map Prod.fst) = l ++ t :: r → m.telfmts.get? t = (T.get? t).map (fun _ => fmtFor T (takesAll T l) t) := by
  have hl := mtel_loop data (uniqueTels (data.map Prod.fst)) (uniqueTels_nodup _) T 0 (by omega) []
  by_cases h9 : 9 < 0 + takesAll T (uniqueTels (data.map Prod.fst))
  · have := hl.1 h9
    unfold mtelplot at h
    rw [this] at h; cases h
  · obtain ⟨T', e, h1, h2⟩ := hl.2 (by omega)
    unfold mtelplot at h
    rw [e] at h
    cases Except.ok.inj h
    refine ⟨by omega, by simp, h1, ?_⟩
    intro l t r hlr
    have := h2 l t r hlr
    rwa [Nat.zero_add] at this

theorem mem_drawAll (data : List (String × α)) (T : Dict String Fmt) (ts : List String) (ci : Nat) (d : Drawn α) :
    d ∈ drawAll data T ci ts ↔ ∃ l t r, ts = l ++ t :: r ∧ d = ⟨t, ptsOf data t, telplotKw t (fmtFor T (ci + takesAll T l) t) none⟩ := by
  induction ts generalizing ci with
  | nil => simp [drawAll]
  | cons t ts ih =>
    unfold drawAll
    rw [List.mem_cons, ih]
    constructor
    · rintro (rfl | ⟨l, u, r, rfl, rfl⟩)
      · exact ⟨[], t, ts, rfl, rfl⟩
      · exact ⟨t :: l, u, r, rfl, by rw [takesAll_cons, Nat.add_assoc]⟩
    · rintro ⟨l, u, r, e, rfl⟩
      cases l with
      | nil =>
        simp only [List.nil_append, List.cons.injEq] at e
        obtain ⟨rfl, rfl⟩ := e
        exact .inl rfl
      | cons a l =>
        simp only [List.cons_append, List.cons.injEq] at e
        obtain ⟨rfl, rfl⟩ := e
        exact .inr ⟨l, u, r, rfl, by rw [takesAll_cons, Nat.add_assoc]⟩

/-- A key of the format, and a format that is not empty, reaches `pl.errorbar`. -/
theorem telplotKw_get (t : String) (f : Fmt) (hn : (Dict.keys f).Nodup) {k v : String} (h : Dict.get? f k = some v) : Dict.get? (telplotKw t f none) k = some v := by
  have he : f.isEmpty = false := by
    cases f with
    | nil => simp [Dict.get?] at h
    | cons => rfl
  unfold telplotKw
  simp only [he, Bool.false_eq_true, if_false]
  split
  · rw [Dict.get?_update _ _ hn, h]; rfl
  · rename_i hl
    rw [Dict.get?_set]
    split
    · rename_i e
      subst e
      exfalso
      apply hl
      unfold Dict.has
      rw [Dict.get?_update _ _ hn, h]; rfl
    · rw [Dict.get?_update _ _ hn, h]; rfl

theorem fmtFor_nodup {T : Dict String Fmt} (hg : GoodFmts T) (ci : Nat) (t : String) : (Dict.keys (fmtFor T ci t)).Nodup := by
  unfold fmtFor
  rcases hT : T.get? t with _ | f
  · simp only
    split <;> simp [Dict.keys]
  · simp only
    split
    · exact hg t f hT
    · exact Dict.nodup_keys_set _ _ _ (hg t f hT)

theorem fmtFor_colour {T : Dict String Fmt} (ci : Nat) {t : String} (hN : NeedsColour T t) : Dict.get? (fmtFor T ci t) "color" = some (defaultColors.getD ci "") := by
  unfold fmtFor
  rcases hN with ⟨f, h1, h2⟩ | ⟨h1, h2⟩
  · rw [h1]
    have : f.has "color" = false := by unfold Dict.has; rw [h2]; rfl
    simp only [this]
    exact Dict.get?_set_self _ _ _
  · rw [h1]
    have : telfmtsDefault.has t = false := by unfold Dict.has; rw [h2]; rfl
    simp only [this]
    rfl

theorem takesAll_append (T : Dict String Fmt) (l r : List String) : takesAll T (l ++ r) = takesAll T l + takesAll T r := by
  induction l with
  | nil => simp [takesAll]
  | cons t l ih => rw [List.cons_append, takesAll_cons, takesAll_cons, ih, Nat.add_assoc]

theorem takes_of_needs {T : Dict String Fmt} {t : String} (h : NeedsColour T t) : takes T t = 1 := by unfold takes; rw [if_pos h]

theorem idx_lt {T : Dict String Fmt} {ts l r : List String} {t : String} (h9 : takesAll T ts ≤ 9) (e : ts = l ++ t :: r) (hN : NeedsColour T t) : takesAll T l < 9 := by
  rw [e, takesAll_append, takesAll_cons, takes_of_needs hN] at h9; omega

/-- Two places of a list: one is before the other, or they are the same. -/
theorem split_cases {ts l r l' r' : List String} {t u : String} (e : ts = l ++ t :: r) (e' : ts = l' ++ u :: r') (hne : t ≠ u) :
    (∃ m, l' = l ++ t :: m) ∨ ∃ m, l = l' ++ u :: m := by
  rw [e] at e'
  rcases List.append_eq_append_iff.1 e' with ⟨a, h1, h2⟩ | ⟨a, h1, h2⟩
  · cases a with
    | nil => simp at h2; exact absurd h2.1 hne
    | cons x a =>
      simp only [List.cons_append, List.cons.injEq] at h2
      exact .inl ⟨a, by rw [h1, h2.1]⟩
  · cases a with
    | nil => simp at h2; exact absurd h2.1.symm hne
    | cons x a =>
      simp only [List.cons_append, List.cons.injEq] at h2
      exact .inr ⟨a, by rw [h1, h2.1]⟩

/-- C135 in part: two instruments that take their colours from the list never have the same one. Missing: instruments with default formats (`C135_alias_violated`, `C135_default_violated`). -/
theorem C135_colours_partial (data : List (String × α)) (T : Dict String Fmt) (hg : GoodFmts T) (m : MTel α) (h : mtelplot data T none = .ok m) (d d' : Drawn α) (hd : d ∈ m.drawn)
    (hd' : d' ∈ m.drawn) (hne : d.tel ≠ d'.tel) (hN : NeedsColour T d.tel) (hN' : NeedsColour T d'.tel) :
    ∃ c c', d.kw.get? "color" = some c ∧ d'.kw.get? "color" = some c' ∧ c ∈ defaultColors ∧ c' ∈ defaultColors ∧ c ≠ c' := by
  obtain ⟨h9, hdr, _, _⟩ := mtelplot_ok data T m h
  rw [hdr, mem_drawAll] at hd hd'
  obtain ⟨l, t, r, e, rfl⟩ := hd
  obtain ⟨l', u, r', e', rfl⟩ := hd'
  simp only [Nat.zero_add] at hne hN hN' ⊢
  have hi := idx_lt h9 e hN
  have hj := idx_lt h9 e' hN'
  have hmem : ∀ i < 9, defaultColors.getD i "" ∈ defaultColors := fun i hi => List.mem_of_getElem? (defaultColors_get hi)
  refine ⟨_, _, telplotKw_get t _ (fmtFor_nodup hg _ _) (fmtFor_colour _ hN), telplotKw_get u _ (fmtFor_nodup hg _ _) (fmtFor_colour _ hN'), hmem _ hi, hmem _ hj, ?_⟩
  intro hc
  have := defaultColors_inj hi hj hc
  rcases split_cases e e' hne with ⟨x, hx⟩ | ⟨x, hx⟩
  · rw [hx, takesAll_append, takesAll_cons, takes_of_needs hN] at this; omega
  · rw [hx, takesAll_append, takesAll_cons, takes_of_needs hN'] at this; omega

/-- C135: what the caller asks for in `telfmts` is what is drawn. -/
theorem C135_own (data : List (String × α)) (T : Dict String Fmt) (hg : GoodFmts T) (m : MTel α) (h : mtelplot data T none = .ok m) (d : Drawn α) (hd : d ∈ m.drawn) (f : Fmt)
    (hf : T.get? d.tel = some f) (k v : String) (hk : f.get? k = some v) : d.kw.get? k = some v := by
  obtain ⟨_, hdr, _, _⟩ := mtelplot_ok data T m h
  rw [hdr, mem_drawAll] at hd
  obtain ⟨l, t, r, e, rfl⟩ := hd
  simp only at hf ⊢
  apply telplotKw_get t _ (fmtFor_nodup hg _ _)
  unfold fmtFor
  rw [hf]
  simp only
  split
  · exact hk
  · rename_i hc
    rw [Dict.get?_set_ne _ _ ?_, hk]
    rintro rfl
    apply hc
    unfold Dict.has; rw [hk]; rfl

/-- C135 fails for ten instruments without formats: `default_colors[9]` raises `IndexError` and nothing of the panel is finished. -/
theorem C135_tenth_violated : mtelplot [("t0", 0), ("t1", 1), ("t2", 2), ("t3", 3), ("t4", 4), ("t5", 5), ("t6", 6), ("t7", 7), ("t8", 8), ("t9", 9)] [] none = .error .indexError := by decide +kernel

/-- C135 fails for two suffixes with one default format: the points of `j` and of `hires` are drawn with the same marker, colour and label. -/
theorem C135_alias_violated : ∃ m d d', mtelplot [("j", 0), ("hires", 1)] [] none = .ok m ∧ m.drawn = [d, d'] ∧ d.tel ≠ d'.tel ∧ d.kw = d'.kw :=
  ⟨⟨[], 0, [⟨"hires", [1], telplotKw "hires" [] none⟩, ⟨"j", [0], telplotKw "j" [] none⟩]⟩, _, _, by decide +kernel, rfl, by decide, by decide +kernel⟩

/-- C135 fails for the third instrument without a format: it has the colour of PFS. -/
theorem C135_default_violated : ∃ m d d', mtelplot [("x", 0), ("y", 1), ("z", 2), ("pfs", 3)] [] none = .ok m ∧ d ∈ m.drawn ∧ d' ∈ m.drawn ∧ d.tel = "z" ∧ d'.tel = "pfs" ∧
    d.kw.get? "color" = some "magenta" ∧ d'.kw.get? "color" = some "magenta" :=
  ⟨⟨[], 3, [⟨"pfs", [3], telplotKw "pfs" [] none⟩, ⟨"x", [0], telplotKw "x" [("color", "orange")] none⟩, ⟨"y", [1], telplotKw "y" [("color", "purple")] none⟩,
      ⟨"z", [2], telplotKw "z" [("color", "magenta")] none⟩]⟩, ⟨"z", [2], telplotKw "z" [("color", "magenta")] none⟩, ⟨"pfs", [3], telplotKw "pfs" [] none⟩, by decide +kernel, by decide +kernel, by decide +kernel, rfl, rfl, by decide +kernel, by decide +kernel⟩

/-! ## The next panel -/

theorem uniqueTels_sorted (tel l r : List String) (u : String) (e : uniqueTels tel = l ++ u :: r) : (∀ x ∈ l, x < u) ∧ ∀ x ∈ r, u < x := by
  have hs : (uniqueTels tel).Pairwise (· ≤ ·) := List.pairwise_insertionSort (· ≤ ·) _
  have hn := uniqueTels_nodup tel
  rw [e] at hs hn
  rw [List.pairwise_append] at hs
  rw [List.nodup_append] at hn
  refine ⟨fun x hx => lt_of_le_of_ne (hs.2.2 x hx u (by simp)) (hn.2.2 x hx u (by simp)), fun x hx => ?_⟩
  have h1 := (List.pairwise_cons.1 hs.2.1).1 x hx
  exact lt_of_le_of_ne h1 (fun h => (List.nodup_cons.1 hn.2.1).1 (h ▸ hx))

theorem fmtFor_entry {T : Dict String Fmt} {t : String} {f : Fmt} (h : T.get? t = some f) (ci : Nat) : (fmtFor T ci t).has "color" = true := by
  unfold fmtFor
  rw [h]
  simp only
  split
  · assumption
  · unfold Dict.has; rw [Dict.get?_set_self]; rfl

/-- After a panel, only the unknown instruments still take colours. -/
theorem needs_after {T T1 : Dict String Fmt} {t : String} {n : Nat} (h : T1.get? t = (T.get? t).map (fun _ => fmtFor T n t)) : NeedsColour T1 t ↔ UnknownTel T t := by
  unfold NeedsColour EntryNoColour
  rcases hT : T.get? t with _ | f
  · rw [hT] at h
    constructor
    · rintro (⟨g, hg, _⟩ | ⟨_, h2⟩)
      · rw [h] at hg; cases hg
      · exact ⟨hT, h2⟩
    · rintro ⟨_, h2⟩
      exact .inr ⟨h, h2⟩
  · rw [hT] at h
    simp only [Option.map_some] at h
    constructor
    · rintro (⟨g, hg, h2⟩ | ⟨h1, _⟩)
      · rw [h] at hg
        cases Option.some.inj hg
        have := fmtFor_entry hT n
        unfold Dict.has at this; rw [h2] at this; simp at this
      · rw [h] at h1; cases h1
    · rintro ⟨h1, _⟩
      rw [hT] at h1; cases h1

theorem fmtFor_after {T T1 : Dict String Fmt} {t : String} {n : Nat} (k : Nat) (h : T1.get? t = (T.get? t).map (fun _ => fmtFor T n t)) (hu : ¬ UnknownTel T t) : fmtFor T1 k t = fmtFor T n t := by
  rcases hT : T.get? t with _ | f
  · rw [hT] at h
    have hd : telfmtsDefault.has t = true := by
      unfold Dict.has
      rcases hd : telfmtsDefault.get? t with _ | g
      · exact absurd ⟨hT, hd⟩ hu
      · rfl
    unfold fmtFor
    simp [h, hT, hd]
  · rw [hT] at h
    simp only [Option.map_some] at h
    have := fmtFor_entry hT n
    conv_lhs => unfold fmtFor
    rw [h]
    simp [this]

open Classical in
theorem takes_after_le {T T1 : Dict String Fmt} {t : String} {n : Nat} (h : T1.get? t = (T.get? t).map (fun _ => fmtFor T n t)) : takes T1 t ≤ takes T t ∧ (EntryNoColour T t → takes T1 t < takes T t) ∧ (¬ EntryNoColour T t → takes T1 t = takes T t) := by
  unfold takes
  have e := needs_after h
  by_cases hU : UnknownTel T t
  · have hN : NeedsColour T t := .inr hU
    rw [if_pos (e.2 hU), if_pos hN]
    refine ⟨le_refl _, ?_, fun _ => rfl⟩
    rintro ⟨f, hf, _⟩
    rw [hU.1] at hf; cases hf
  · rw [if_neg (fun h' => hU (e.1 h'))]
    refine ⟨Nat.zero_le _, fun hE => ?_, fun hE => ?_⟩
    · rw [if_pos (show NeedsColour T t from .inl hE)]; omega
    · rw [if_neg (show ¬ NeedsColour T t from fun h' => h'.elim hE hU)]

theorem takesAll_after {T T1 : Dict String Fmt} (l : List String) (h : ∀ t ∈ l, ∃ n, T1.get? t = (T.get? t).map (fun _ => fmtFor T n t)) :
    takesAll T1 l ≤ takesAll T l ∧ ((∃ t ∈ l, EntryNoColour T t) → takesAll T1 l < takesAll T l) ∧ ((∀ t ∈ l, ¬ EntryNoColour T t) → takesAll T1 l = takesAll T l) := by
  induction l with
  | nil => simp [takesAll]
  | cons t l ih =>
    obtain ⟨n, hn⟩ := h t (by simp)
    obtain ⟨a1, a2, a3⟩ := takes_after_le hn
    obtain ⟨b1, b2, b3⟩ := ih (fun u hu => h u (by simp [hu]))
    rw [takesAll_cons, takesAll_cons]
    refine ⟨by omega, ?_, ?_⟩
    · rintro ⟨u, hu, hE⟩
      rcases List.mem_cons.1 hu with rfl | hu
      · have := a2 hE; omega
      · have := b2 ⟨u, hu, hE⟩; omega
    · intro hE
      rw [a3 (hE t (by simp)), b3 (fun u hu => hE u (by simp [hu]))]

/-- C136: a panel leaves the caller's formats as they were exactly when every format it used has a colour. -/
theorem C136_unchanged (data : List (String × α)) (T : Dict String Fmt) (m : MTel α) (h : mtelplot data T none = .ok m) :
    (∀ u, m.telfmts.get? u = T.get? u) ↔ ∀ p ∈ data, ¬ EntryNoColour T p.1 := by
  obtain ⟨_, _, h1, h2⟩ := mtelplot_ok data T m h
  constructor
  · rintro hsame p hp ⟨f, hf, hc⟩
    have hm : p.1 ∈ uniqueTels (data.map Prod.fst) := (mem_uniqueTels _ _).2 (List.mem_map.2 ⟨p, hp, rfl⟩)
    obtain ⟨l, r, e⟩ := List.append_of_mem hm
    have := h2 l p.1 r e
    rw [hsame, hf] at this
    have e' : f = fmtFor T (takesAll T l) p.1 := Option.some.inj this
    have hh := fmtFor_entry hf (takesAll T l)
    rw [← e'] at hh
    unfold Dict.has at hh; rw [hc] at hh; simp at hh
  · intro hno u
    by_cases hu : u ∈ uniqueTels (data.map Prod.fst)
    · obtain ⟨l, r, e⟩ := List.append_of_mem hu
      rw [h2 l u r e]
      rcases hT : T.get? u with _ | f
      · rfl
      · obtain ⟨p, hp, rfl⟩ := List.mem_map.1 ((mem_uniqueTels _ _).1 hu)
        have hc : f.has "color" = true := by
          unfold Dict.has
          rcases hc : f.get? "color" with _ | c
          · exact absurd ⟨f, hT, hc⟩ (hno p hp)
          · rfl
        unfold fmtFor
        simp [hT, hc]
    · exact h1 u hu

/-- C136: a second panel of the same instruments, drawn with the formats the first one left, never fails; it draws every instrument as the first one did exactly when no instrument without any format
is sorted after one whose format has no colour. -/
theorem C136_panels {β : Type} (data : List (String × α)) (data' : List (String × β)) (T : Dict String Fmt) (hg : GoodFmts T) (m : MTel α) (h : mtelplot data T none = .ok m)
    (hsame : ∀ t, t ∈ data.map Prod.fst ↔ t ∈ data'.map Prod.fst) : ∃ m', mtelplot data' m.telfmts none = .ok m' ∧
    ((∀ d ∈ m.drawn, ∀ d' ∈ m'.drawn, d.tel = d'.tel → d.kw = d'.kw) ↔
      ∀ p ∈ data, ∀ q ∈ data, EntryNoColour T p.1 → UnknownTel T q.1 → ¬ p.1 < q.1) := by
  obtain ⟨h9, hdr, h1, h2⟩ := mtelplot_ok data T m h
  have hts : uniqueTels (data'.map Prod.fst) = uniqueTels (data.map Prod.fst) := by
    refine List.Perm.eq_of_pairwise (le := (· ≤ ·)) (fun a b _ _ h h' => le_antisymm h h') (List.pairwise_insertionSort _ _) (List.pairwise_insertionSort _ _) ?_
    rw [List.perm_ext_iff_of_nodup (uniqueTels_nodup _) (uniqueTels_nodup _)]
    intro t
    rw [mem_uniqueTels, mem_uniqueTels, hsame]
  have haft : ∀ t ∈ uniqueTels (data.map Prod.fst), ∃ n, m.telfmts.get? t = (T.get? t).map (fun _ => fmtFor T n t) := by
    intro t ht
    obtain ⟨l, r, e⟩ := List.append_of_mem ht
    exact ⟨_, h2 l t r e⟩
  obtain ⟨hle, _, _⟩ := takesAll_after _ haft
  have hok : ∃ m', mtelplot data' m.telfmts none = .ok m' := by
    apply (C135_limit data' m.telfmts).2
    rw [← takesAll_unique, hts]; omega
  obtain ⟨m', hm'⟩ := hok
  obtain ⟨_, hdr', _, _⟩ := mtelplot_ok data' m.telfmts m' hm'
  rw [hts] at hdr'
  refine ⟨m', hm', ?_⟩
  rw [hdr, hdr']
  constructor
  · intro hall p hp q hq hE hU hlt
    have hqm : q.1 ∈ uniqueTels (data.map Prod.fst) := (mem_uniqueTels _ _).2 (List.mem_map.2 ⟨q, hq, rfl⟩)
    have hpm : p.1 ∈ uniqueTels (data.map Prod.fst) := (mem_uniqueTels _ _).2 (List.mem_map.2 ⟨p, hp, rfl⟩)
    obtain ⟨l, r, e⟩ := List.append_of_mem hqm
    have hs := uniqueTels_sorted _ _ _ _ e
    have hpl : p.1 ∈ l := by
      rw [e] at hpm
      rcases List.mem_append.1 hpm with h' | h'
      · exact h'
      · rcases List.mem_cons.1 h' with h' | h'
        · exact absurd hlt (by rw [h']; exact lt_irrefl _)
        · exact absurd (hs.2 _ h') (lt_asymm hlt)
    have hkw := hall _ ((mem_drawAll data T _ 0 _).2 ⟨l, q.1, r, e, rfl⟩) _ ((mem_drawAll data' m.telfmts _ 0 _).2 ⟨l, q.1, r, e, rfl⟩) rfl
    simp only [Nat.zero_add] at hkw
    have hN : NeedsColour T q.1 := .inr hU
    obtain ⟨n, hn⟩ := haft q.1 hqm
    have hN1 : NeedsColour m.telfmts q.1 := (needs_after hn).2 hU
    have hU1 : m.telfmts.get? q.1 = none := by rw [hn, hU.1]; rfl
    have hnd1 : (Dict.keys (fmtFor m.telfmts (takesAll m.telfmts l) q.1)).Nodup := by
      unfold fmtFor; rw [hU1]; simp only; split <;> simp [Dict.keys]
    have c1 := telplotKw_get q.1 _ (fmtFor_nodup hg (takesAll T l) q.1) (fmtFor_colour _ hN)
    have c2 := telplotKw_get q.1 _ hnd1 (fmtFor_colour _ hN1)
    rw [hkw, c2] at c1
    have hlt9 := idx_lt h9 e hN
    obtain ⟨_, hstrict, _⟩ := takesAll_after l (fun t ht => haft t (by rw [e]; simp [ht]))
    have hst := hstrict ⟨p.1, hpl, hE⟩
    have := defaultColors_inj (by omega) hlt9 (Option.some.inj c1)
    omega
  · intro hno d hd d' hd' hdd
    rw [mem_drawAll] at hd hd'
    obtain ⟨l, t, r, e, rfl⟩ := hd
    obtain ⟨l', u, r', e', rfl⟩ := hd'
    simp only at hdd
    subst hdd
    have hll : l' = l := by
      have hn := uniqueTels_nodup (data.map Prod.fst)
      rw [e] at e'
      rw [e] at hn
      rw [List.nodup_append] at hn
      rcases List.append_eq_append_iff.1 e' with ⟨a, b1, b2⟩ | ⟨a, b1, b2⟩
      · cases a with
        | nil => simpa using b1
        | cons x a =>
          simp only [List.cons_append, List.cons.injEq] at b2
          exfalso
          exact (List.nodup_cons.1 hn.2.1).1 (by rw [b2.2]; simp)
      · cases a with
        | nil => simpa using b1.symm
        | cons x a =>
          simp only [List.cons_append, List.cons.injEq] at b2
          exfalso
          exact hn.2.2 t (by rw [b1, b2.1]; simp) t (by simp) rfl
    subst hll
    simp only [Nat.zero_add]
    have htm : t ∈ uniqueTels (data.map Prod.fst) := by rw [e]; simp
    by_cases hU : UnknownTel T t
    · obtain ⟨_, _, heq⟩ := takesAll_after l' (fun u hu => haft u (by rw [e]; simp [hu]))
      have hE : ∀ u ∈ l', ¬ EntryNoColour T u := by
        intro u hu hE
        have hum : u ∈ uniqueTels (data.map Prod.fst) := by rw [e]; simp [hu]
        obtain ⟨p, hp, rfl⟩ := List.mem_map.1 ((mem_uniqueTels _ _).1 hum)
        obtain ⟨q, hq, rfl⟩ := List.mem_map.1 ((mem_uniqueTels _ _).1 htm)
        exact hno p hp q hq hE hU ((uniqueTels_sorted _ _ _ _ e).1 _ hu)
      rw [heq hE, fmtFor_congr (T := T) (T' := m.telfmts)]
      rw [h2 l' t r e, hU.1]; rfl
    · rw [fmtFor_after _ (h2 l' t r e) hU]

/-- C136 fails for a format without colour and an unknown instrument after it: `x` is purple in the first panel and orange, the colour of `a1`, in the second, and the caller's dictionary has a new key. -/
theorem C136_second_violated : ∃ m m' : MTel Nat, mtelplot [("a1", 0), ("x", 1)] [("a1", [("fmt", "s")])] none = .ok m ∧ mtelplot [("a1", 0), ("x", 1)] m.telfmts none = .ok m' ∧
    m.telfmts = [("a1", [("fmt", "s"), ("color", "orange")])] ∧ m.drawn.map (fun d => (d.tel, d.kw.get? "color")) = [("a1", some "orange"), ("x", some "purple")] ∧
    m'.drawn.map (fun d => (d.tel, d.kw.get? "color")) = [("a1", some "orange"), ("x", some "orange")] :=
  ⟨⟨[("a1", [("fmt", "s"), ("color", "orange")])], 2, [⟨"a1", [0], telplotKw "a1" [("fmt", "s"), ("color", "orange")] none⟩, ⟨"x", [1], telplotKw "x" [("color", "purple")] none⟩]⟩,
    ⟨[("a1", [("fmt", "s"), ("color", "orange")])], 1, [⟨"a1", [0], telplotKw "a1" [("fmt", "s"), ("color", "orange")] none⟩, ⟨"x", [1], telplotKw "x" [("color", "orange")] none⟩]⟩,
    by decide +kernel, by decide +kernel, rfl, by decide +kernel, by decide +kernel⟩

/-- Non-vacuity: two unknown instruments and one with a format of the caller. -/
example : GoodFmts [("b", [("color", "red")])] ∧ (∃ m, mtelplot [("u", 0), ("b", 1), ("v", 2), ("u", 3)] [("b", [("color", "red")])] none = .ok m ∧ m.drawn.map Drawn.tel = ["b", "u", "v"]) ∧
    NeedsColour [("b", [("color", "red")])] "u" ∧ NeedsColour [("b", [("color", "red")])] "v" ∧ ¬ EntryNoColour [("b", [("color", "red")])] "b" := by
  refine ⟨?_, ⟨⟨[("b", [("color", "red")])], 2, [⟨"b", [1], telplotKw "b" [("color", "red")] none⟩, ⟨"u", [0, 3], telplotKw "u" [("color", "orange")] none⟩, ⟨"v", [2], telplotKw "v" [("color", "purple")] none⟩]⟩,
    by decide +kernel, rfl⟩, .inr ⟨by decide, by decide +kernel⟩, .inr ⟨by decide, by decide +kernel⟩, ?_⟩
  · intro t f h
    have := Dict.mem_of_get? _ h
    simp only [List.mem_singleton, Prod.mk.injEq] at this
    rw [this.2]
    decide
  · rintro ⟨f, hf, hc⟩
    cases Option.some.inj ((show Dict.get? [("b", [("color", "red")])] "b" = some [("color", "red")] from by decide).symm.trans hf)
    exact absurd hc (by decide)

end Radvel
