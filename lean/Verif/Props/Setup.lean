import Verif.Lemmas.Setup
import Verif.Props.Params

/-!
# C117-C121: from a setup file to a posterior (`radvel/utils.py` 50-143)
-/

namespace Radvel

/-! ### a concrete setup file -/

/-- One planet, two instruments, GP hyperparameters for the instrument `j`. -/
noncomputable def exampleSetupParams : Params ℝ :=
  ["gp_amp_j", "gp_per_j", "gp_perlength_j", "gp_explength_j"].foldl (fun p n => p.setItem (.inst .gp (String.ofList (n.toList.drop 2))) { value := 2 })
    (((((Params.init (0 : ℝ) 1 .perTcSecoswSesinwK none).setItem (.inst .gamma "_j") { value := 7, vary := .no, linear := true }).setItem
      (.inst .jit "_j") { value := 1 }).setItem (.inst .gamma "_k") { value := 5 }).setItem (.inst .jit "_k") { value := 3 })

noncomputable def exampleSetup (insts : List String) (hn : Option (Dict String (List Key))) : SetupFile where
  params := exampleSetupParams
  fittingBasis := .perTcSecoswSesinwK
  instnames := insts
  data := [{ tel := "j", t := 1, y := 2, err := 1 }, { tel := "k", t := 2, y := 3, err := 1 }, { tel := "j", t := 3, y := 4, err := 1 }]
  columns := ["bis"]
  decorrVars := some ["bis"]
  hnames := hn

/-- The GP hyperparameters of `j`. -/
def exampleHnames : List Key := [.inst .gp "_amp_j", .inst .gp "_per_j", .inst .gp "_perlength_j", .inst .gp "_explength_j"]

theorem exampleSetup_keys : exampleSetupParams.items.keys =
    [.orb .per 1, .orb .tc 1, .orb .secosw 1, .orb .sesinw 1, .orb .k 1, .inst .gamma "_j", .inst .jit "_j", .inst .gamma "_k", .inst .jit "_k"] ++ exampleHnames := by
  rfl

theorem exampleSetup_ready (insts : List String) (hn : Option (Dict String (List Key))) (option : Bool) : SetupReady (exampleSetup insts hn) option where
  user := by
    refine .set _ _ _ (.set _ _ _ (.set _ _ _ (.set _ _ _ (.set _ _ _ (.set _ _ _ (.set _ _ _ (.set _ _ _ (.new 0 1 .perTcSecoswSesinwK none (by decide)) ?_ ?_) ?_ ?_) ?_ ?_) ?_ ?_) ?_ ?_) ?_ ?_) ?_ ?_) ?_ ?_
    all_goals first | exact .inr (.inr (.inr ⟨_, _, rfl⟩)) | simp
  basis := rfl
  nologjit := by
    intro r hr
    change _ ∈ exampleSetupParams.items.keys at hr
    rw [exampleSetup_keys] at hr
    simp [exampleHnames] at hr
  decorr := fun _ => ⟨["bis"], rfl, by simp [exampleSetup]⟩

theorem exampleSetup_inst (insts : List String) (hn : Option (Dict String (List Key))) (i : String) (hi : i = "j" ∨ i = "k")
    (hgp : ∀ d, hn = some d → i = "j" ∧ d.get? i = some exampleHnames) : InstReady (exampleSetup insts hn) i where
  data := by rcases hi with rfl | rfl <;> simp [exampleSetup]
  gamma := by
    change _ ∈ exampleSetupParams.items.keys
    rw [exampleSetup_keys]; rcases hi with rfl | rfl <;> simp
  jit := by
    change _ ∈ exampleSetupParams.items.keys
    rw [exampleSetup_keys]; rcases hi with rfl | rfl <;> simp
  gp := by
    intro d hd
    obtain ⟨_, h2⟩ := hgp d hd
    refine ⟨exampleHnames, h2, ?_, .inl ⟨rfl, by decide, by decide, ?_⟩⟩
    · intro k hk
      change _ ∈ exampleSetupParams.items.keys
      rw [exampleSetup_keys]; exact List.mem_append_right _ hk
    · decide

/-! ## C117 -/

/-- C117: if `initialize_posterior` returns, the data of the composite likelihood are the observations of the listed instruments, each once, with their times,
uncertainties and instruments kept together; velocities are those of the file, less the instrument's starting `gamma` for all instruments but the first (C29). Missing:
observations of instruments that are not listed, see `C117_unlisted_violated`. -/
theorem C117_data_partial (dflt : ℝ) (P : SetupFile) (option : Bool) (r : SetupPost) (h : P.initialize dflt option = .ok r) :
    ∃ rows : List DataRow, rows.Perm (P.data.filter (fun d => d.tel ∈ P.instnames)) ∧
      r.comp.x = rows.map DataRow.t ∧ r.comp.yerr = rows.map DataRow.err ∧ r.comp.telvec = rows.map DataRow.tel ∧
      ((∀ i l hn c, (i, InstLike.celerite l hn c) ∉ r.likes) → rows = (firsts P.instnames).flatMap (fun i => P.data.filter (fun d => d.tel == i))) ∧
      ∃ off : String → ℝ, (∀ i ∈ P.instnames, P.instnames.head? ≠ some i → readPar r.st (.inst .gamma ("_" ++ i)) = .ok (off i)) ∧
        (∀ i, P.instnames.head? = some i → off i = 0) ∧ r.comp.y = rows.map (fun d => d.y - off d.tel) := by
  classical
  obtain ⟨_, vars, items, s, _, _, _, hl, hc⟩ := initialize_inv h
  obtain ⟨l1, l2, l3⟩ := instLoop_holds _ _ _ hl (by simp) (by simp [Dict.keys])
  simp only at l1 l2
  simp only [Dict.keys, List.map_nil, List.not_mem_nil, not_false_iff, decide_true, List.nil_append, List.filter_true] at l3
  have hf : ∀ i, ∃ rows : List DataRow, ∀ L, (i, L) ∈ r.likes →
      rows.Perm (P.rowsOf i) ∧ (L.member i).Holds i rows ∧ ((∀ l hn c, L ≠ .celerite l hn c) → rows = P.rowsOf i) := by
    intro i
    rcases hg : r.likes.get? i with _ | L
    · refine ⟨[], fun L hL => ?_⟩
      rw [Dict.get?_of_mem_nodup _ l2 hL] at hg; cases hg
    · obtain ⟨rows, hr⟩ := l1 i L (Dict.mem_of_get? _ hg)
      refine ⟨rows, fun L' hL' => ?_⟩
      rw [Dict.get?_of_mem_nodup _ l2 hL'] at hg; cases hg
      exact hr
  choose f hf using hf
  have htel : ∀ i L, (i, L) ∈ r.likes → ∀ d ∈ f i, d.tel = i := by
    intro i L hm d hd
    have := (hf i L hm).1.mem_iff.1 hd
    simpa [SetupFile.rowsOf] using (List.mem_filter.1 this).2
  have hkeys : (r.likes.map Prod.fst).flatMap f = r.likes.flatMap (fun x => f x.1) := by rw [List.flatMap_map]
  refine ⟨r.likes.flatMap (fun x => f x.1), ?_, ?_⟩
  · have h1 : (r.likes.flatMap (fun x => f x.1)).Perm (r.likes.flatMap (fun x => P.rowsOf x.1)) := by
      apply List.Perm.flatMap_left
      intro x hx
      exact (hf x.1 x.2 hx).1
    refine h1.trans ?_
    have h2 : r.likes.flatMap (fun x => P.rowsOf x.1) = (firsts P.instnames).flatMap (fun i => P.data.filter (fun d => d.tel == i)) := by
      rw [← l3, List.flatMap_map]; rfl
    rw [h2]
    refine (groups_perm P.data _ (nodup_firsts _)).trans (List.Perm.of_eq ?_)
    apply List.filter_congr
    intro d _
    simp [mem_firsts]
  · -- the arrays
    rcases hlikes : r.likes with _ | ⟨⟨i0, L0⟩, t⟩
    · rw [hlikes] at hc; cases hc
    · have hm0 : (i0, L0) ∈ r.likes := by rw [hlikes]; simp
      have hmt : ∀ x ∈ t, (x.1, x.2) ∈ r.likes := by intro x hx; rw [hlikes]; simp [hx]
      rw [hlikes] at hc
      simp only [List.map_cons, compositeInit] at hc
      obtain ⟨c1, c2, c3, c4⟩ := compositeFold _ _ _ _ hc
      obtain ⟨d1, d2⟩ := c4 (fun k => match readPar r.st k with | .ok v => v | .error _ => 0) (by intro m _ v hv; simp only [hv])
      have hhead : P.instnames.head? = some i0 := by
        rw [hlikes] at l3
        rcases hi : P.instnames with _ | ⟨a, b⟩
        · rw [hi] at l3; simp [firsts] at l3
        · rw [hi] at l3; simp only [firsts, List.map_cons] at l3
          rw [(List.cons.inj l3).1]; rfl
      have hi0 : ∀ x ∈ t, x.1 ≠ i0 := by
        intro x hx he
        have := l2
        rw [hlikes] at this
        simp only [Dict.keys, List.map_cons, List.nodup_cons] at this
        exact this.1 (he ▸ List.mem_map_of_mem hx)
      have H0 := (hf i0 L0 hm0).2.1
      have mapx : ∀ (sel : Member → List ℝ) (g : DataRow → ℝ), (∀ x ∈ t, sel (x.2.member x.1) = (f x.1).map g) →
          (t.map (fun x => x.2.member x.1)).flatMap sel = (t.flatMap (fun x => f x.1)).map g := by
        intro sel g hs
        rw [List.flatMap_map, List.map_flatMap]
        exact List.flatMap_congr hs
      refine ⟨?_, ?_, ?_, ?_, ?_⟩
      · rw [c1, H0.x, mapx Member.x DataRow.t (fun x hx => (hf x.1 x.2 (hmt x hx)).2.1.x)]
        simp
      · rw [c2, H0.yerr, mapx Member.yerr DataRow.err (fun x hx => (hf x.1 x.2 (hmt x hx)).2.1.yerr)]
        simp
      · have e1 : ∀ i L, (i, L) ∈ r.likes → (L.member i).telvec = (f i).map DataRow.tel := by
          intro i L hm
          rw [(hf i L hm).2.1.tel]
          exact List.map_congr_left (fun d hd => (htel i L hm d hd).symm)
        rw [c3, e1 i0 L0 hm0, List.flatMap_map]
        simp only [List.flatMap_cons, List.map_append, List.map_flatMap]
        congr 1
        exact List.flatMap_congr (fun x hx => e1 x.1 x.2 (hmt x hx))
      · intro hcel
        rw [← l3, List.flatMap_map, ← hlikes]
        apply List.flatMap_congr
        intro x hx
        refine (hf x.1 x.2 hx).2.2 ?_
        intro l hn c he
        exact hcel x.1 l hn c (by rw [← he, ← hlikes]; exact hx)
      · refine ⟨fun i => if i = i0 then 0 else (match readPar r.st (.inst .gamma ("_" ++ i)) with | .ok v => v | .error _ => 0), ?_, ?_, ?_⟩
        · intro i hi hne
          have hne' : i ≠ i0 := by rintro rfl; exact hne hhead
          have hmem : i ∈ r.likes.map Prod.fst := by rw [l3, mem_firsts]; exact hi
          rw [hlikes] at hmem
          simp only [List.map_cons, List.mem_cons, hne', false_or, List.mem_map] at hmem
          obtain ⟨x, hx, rfl⟩ := hmem
          have hm := (hf x.1 x.2 (hmt x hx)).2.1.gamma
          have := d1 (x.2.member x.1) (List.mem_map_of_mem hx)
          rw [hm] at this
          simp only [hne', if_false]
          exact this
        · intro i hi
          rw [hhead] at hi; cases hi
          simp
        · rw [d2, H0.y, List.flatMap_map]
          simp only [List.flatMap_cons, List.map_append, List.map_flatMap]
          congr 1
          · apply List.map_congr_left
            intro d hd
            simp [htel i0 L0 hm0 d hd]
          · apply List.flatMap_congr
            intro x hx
            have H := (hf x.1 x.2 (hmt x hx)).2.1
            rw [H.y, H.gamma, List.map_map]
            apply List.map_congr_left
            intro d hd
            simp only [Function.comp, htel x.1 x.2 (hmt x hx) d hd, hi0 x hx, if_false]

/-- C117 in full is false: whenever the data contain an instrument that is not listed in `instnames`, its observations are left out without a message: the posterior is
built (if it is built) from fewer observations than the file has. -/
theorem C117_unlisted_violated (dflt : ℝ) (P : SetupFile) (option : Bool) (r : SetupPost) (h : P.initialize dflt option = .ok r)
    (d : DataRow) (hd : d ∈ P.data) (hl : d.tel ∉ P.instnames) :
    r.comp.x.length < P.data.length ∧ d.tel ∉ r.comp.telvec := by
  obtain ⟨rows, hp, hx, _, ht, _⟩ := C117_data_partial dflt P option r h
  constructor
  · rw [hx, List.length_map, hp.length_eq]
    exact List.length_filter_lt_length_iff_exists.2 ⟨d, hd, by simpa using hl⟩
  · rw [ht]
    intro hm
    obtain ⟨d', h1, h2⟩ := List.mem_map.1 hm
    have := (List.mem_filter.1 (hp.mem_iff.1 h1)).2
    rw [h2] at this
    exact hl (by simpa using this)

/-! ## C118 -/

theorem start_inv {p : Params ℝ} (hu : UserParams p) (vars : List String) {s : VState ℝ} (hs : VState.init p = .ok s) : SetupInv p.items vars [] s := by
  obtain ⟨s', h1, h2, h3, h4, _⟩ := hu.model
  rw [h1] at hs; cases hs
  exact ⟨h2, h3, fun k q hk => by rw [h4]; exact hk, fun k q hk => .inl (by rw [h4] at hk; exact hk)⟩

/-- C118: if `initialize_posterior` returns, the posterior starts where the setup file says. Every parameter of the setup file is in the dictionary with its value, vary flag,
scale and linear flag, and its own row of the vector holds the same; every other parameter is a decorrelation coefficient of a listed instrument and starts, free, at 0.
For setup files without `logjit` (C93). -/
theorem C118_start (dflt : ℝ) (P : SetupFile) (option : Bool) (hu : UserParams P.params) (hj : ∀ k, Key.inst .logjit k ∉ P.params.items.keys)
    (r : SetupPost) (h : P.initialize dflt option = .ok r) :
    (∀ k q, P.params.items.get? k = some q → r.st.params.items.get? k = some q) ∧ Synced r.st ∧ RowsOwned r.st ∧ NamesLabelRows r.st ∧
    ∀ k q, r.st.params.items.get? k = some q → P.params.items.get? k = some q ∨
      (option = true ∧ (∃ vs, P.decorrVars = some vs ∧ ∃ d ∈ vs, ∃ i ∈ P.instnames, k = .other ("c1_" ++ d ++ ("_" ++ i))) ∧ q = { value := 0, vary := .yes }) := by
  obtain ⟨_, vars, items, s, hv, hi, hs, hl, _⟩ := initialize_inv h
  rw [convertLogjit_none _ _ hj] at hi
  cases hi
  have hstart := start_inv hu vars hs
  have hfin := instLoop_keeps dflt hu.good.nodup P.instnames [] (s, []) _ hstart hl
  refine ⟨hfin.keep, synced_of_fresh hfin.fresh, owned_of_inv hfin.fresh.inv hfin.fresh.ui, ?_, ?_⟩
  · refine ⟨hfin.names.len, fun i k hk => (hfin.names.bwd i k hk).2, fun k hk => ?_⟩
    obtain ⟨i, hi⟩ := hfin.fresh.inv.indexed_of_not_mem hfin.fresh.ui (Or.inl hk)
    exact ⟨i, hfin.names.fwd k i (Or.inl hk) hi⟩
  · intro k q hk
    rcases hfin.new k q hk with h1 | ⟨⟨d, hd, i, hi, he⟩, hq⟩
    · exact .inl h1
    · right
      unfold SetupFile.decorr at hv
      split at hv
      · next ho =>
        split at hv
        · next vs' hvs => cases hv; exact ⟨ho, ⟨_, hvs, d, hd, i, by simpa using hi, he⟩, hq⟩
        · cases hv
      · cases hv; simp at hd

/-! ## C119 -/

/-- C119: a setup file that provides what it should gives a posterior, with or without GPs and decorrelation. -/
theorem C119_ready (dflt : ℝ) (P : SetupFile) (option : Bool) (hP : SetupReady P option) (hne : P.instnames ≠ []) (hi : ∀ i ∈ P.instnames, InstReady P i) :
    ∃ r, P.initialize dflt option = .ok r ∧ r.likes.keys = firsts P.instnames := by
  obtain ⟨vars, hv, hc⟩ : ∃ vars, P.decorr option = .ok vars ∧ ∀ v ∈ vars, v ∈ P.columns := by
    unfold SetupFile.decorr
    cases option with
    | false => exact ⟨[], rfl, by simp⟩
    | true =>
      obtain ⟨vs, h1, h2⟩ := hP.decorr rfl
      exact ⟨vs, by simp [h1], h2⟩
  obtain ⟨s, hs, _⟩ := hP.user.model
  have hstart := start_inv hP.user vars hs
  obtain ⟨⟨s', likes⟩, hl, hfin⟩ := instLoop_ok dflt hP.user.good.nodup hc P.instnames [] (s, []) hstart hi
  obtain ⟨l1, l2, l3⟩ := instLoop_holds _ _ _ hl (by simp) (by simp [Dict.keys])
  simp only [Dict.keys, List.map_nil, List.not_mem_nil, not_false_iff, decide_true, List.nil_append, List.filter_true] at l3
  have hmem : ∀ x ∈ likes, x.1 ∈ P.instnames := by
    intro x hx
    rw [← mem_firsts, ← l3]
    exact List.mem_map_of_mem hx
  have hread : ∀ x ∈ likes, ∃ v, readPar s' (x.2.member x.1).gammaParam = .ok v := by
    intro x hx
    obtain ⟨rows, _, hH, _⟩ := l1 x.1 x.2 hx
    rw [hH.gamma]
    obtain ⟨q, hq⟩ := Dict.exists_get?_of_mem _ (hi _ (hmem x hx)).gamma
    obtain ⟨i, row, h1, h2, _⟩ := synced_of_fresh hfin.fresh _ _ (hfin.keep _ _ hq)
    exact ⟨row.value, by simp only [readPar, h1, h2]⟩
  obtain ⟨comp, hcomp⟩ : ∃ comp, compositeInit s' (likes.map (fun x => x.2.member x.1)) = .ok comp := by
    rcases hlk : likes with _ | ⟨x, t⟩
    · rw [hlk] at l3
      rcases hin : P.instnames with _ | ⟨a, b⟩
      · exact absurd hin hne
      · rw [hin] at l3; simp [firsts] at l3
    · simp only [List.map_cons, compositeInit]
      apply compositeFold_ok
      intro m hm
      obtain ⟨y, hy, rfl⟩ := List.mem_map.1 hm
      exact hread y (by rw [hlk]; simp [hy])
  refine ⟨{ st := s', likes := likes, comp := comp }, ?_, l3⟩
  unfold SetupFile.initialize
  rw [if_neg (by simp [hP.basis])]
  simp only [hv, convertLogjit_none _ _ hP.nologjit, hs]
  have : P.instnames.foldlM (P.addInst vars (copyParams dflt { P.params with items := P.params.items })) (s, []) = .ok (s', likes) := hl
  simp only [this, hcomp]

/-- Non-vacuity of C117, C118, C119 and C121: a setup file with both instruments and one in which the observation of `k` is lost. -/
example : (∃ r, (exampleSetup ["j", "k"] none).initialize 0 true = .ok r) ∧
    ∃ r, (exampleSetup ["j"] none).initialize 0 true = .ok r ∧ ∃ d ∈ (exampleSetup ["j"] none).data, d.tel ∉ (exampleSetup ["j"] none).instnames := by
  obtain ⟨r, h1, _⟩ := C119_ready 0 (exampleSetup ["j", "k"] none) true (exampleSetup_ready _ _ _) (by simp [exampleSetup])
    (fun i hi => exampleSetup_inst _ _ i (by simpa [exampleSetup] using hi) (by simp))
  obtain ⟨r', h2, _⟩ := C119_ready 0 (exampleSetup ["j"] none) true (exampleSetup_ready _ _ _) (by simp [exampleSetup])
    (fun i hi => exampleSetup_inst _ _ i (by left; simpa [exampleSetup] using hi) (by simp))
  exact ⟨⟨r, h1⟩, r', h2, { tel := "k", t := 2, y := 3, err := 1 }, by simp [exampleSetup], by simp [exampleSetup]⟩

/-- ... and one with a GP. -/
example : ∃ r, (exampleSetup ["j"] (some [("j", exampleHnames)])).initialize 0 true = .ok r := by
  obtain ⟨r, h1, _⟩ := C119_ready 0 (exampleSetup ["j"] (some [("j", exampleHnames)])) true (exampleSetup_ready _ _ _) (by simp [exampleSetup])
    (fun i hi => exampleSetup_inst _ _ i (by left; simpa [exampleSetup] using hi) (by
      intro d hd
      cases hd
      have : i = "j" := by simpa [exampleSetup] using hi
      subst this
      exact ⟨rfl, by rfl⟩))
  exact ⟨r, h1⟩

/-- C119, exactly when: without GPs, a posterior is returned if and only if at least one instrument is listed and every listed instrument has observations, `gamma` and
`jit`. -/
theorem C119_exactly (dflt : ℝ) (P : SetupFile) (option : Bool) (hP : SetupReady P option) (hh : P.hnames = none) :
    (∃ r, P.initialize dflt option = .ok r) ↔ P.instnames ≠ [] ∧ ∀ i ∈ P.instnames, (∃ d ∈ P.data, d.tel = i) ∧
      Key.inst .gamma ("_" ++ i) ∈ P.params.items.keys ∧ Key.inst .jit ("_" ++ i) ∈ P.params.items.keys := by
  constructor
  · rintro ⟨r, h⟩
    obtain ⟨_, vars, items, s, hv, hi, hs, hl, hc⟩ := initialize_inv h
    rw [convertLogjit_none _ _ hP.nologjit] at hi
    cases hi
    refine ⟨?_, fun i hi => ?_⟩
    · intro he
      rw [he] at hl
      have h2 : ([] : Dict String InstLike) = r.likes := (Prod.mk.inj (Except.ok.inj hl)).2
      rw [← h2] at hc
      cases hc
    · obtain ⟨h1, h2, h3, _⟩ := instLoop_needs dflt hP.user.good.nodup P.instnames _ _ hl i hi
      exact ⟨h1, h2, h3⟩
  · rintro ⟨hne, hall⟩
    obtain ⟨r, hr, _⟩ := C119_ready dflt P option hP hne (fun i hi => ⟨(hall i hi).1, (hall i hi).2.1, (hall i hi).2.2, by simp [hh]⟩)
    exact ⟨r, hr⟩

/-- An instrument that raises, after instruments that do not. -/
theorem initialize_raises (dflt : ℝ) (P : SetupFile) (option : Bool) (hP : SetupReady P option) (pre post : List String) (inst : String)
    (hin : P.instnames = pre ++ inst :: post) (hpre : ∀ i ∈ pre, InstReady P i) (e : PyErr)
    (he : ∀ vars acc, (∀ v ∈ vars, v ∈ P.columns) → P.addInst vars (copyParams dflt P.params) acc inst = .error e) : P.initialize dflt option = .error e := by
  obtain ⟨vars, hv, hc⟩ : ∃ vars, P.decorr option = .ok vars ∧ ∀ v ∈ vars, v ∈ P.columns := by
    unfold SetupFile.decorr
    cases option with
    | false => exact ⟨[], rfl, by simp⟩
    | true =>
      obtain ⟨vs, h1, h2⟩ := hP.decorr rfl
      exact ⟨vs, by simp [h1], h2⟩
  obtain ⟨s, hs, _⟩ := hP.user.model
  obtain ⟨r, hl, _⟩ := instLoop_ok dflt hP.user.good.nodup hc pre [] (s, []) (start_inv hP.user vars hs) hpre
  have : P.instnames.foldlM (P.addInst vars (copyParams dflt { P.params with items := P.params.items })) (s, []) = .error e := by
    rw [hin, List.foldlM_append]
    change (pre.foldlM (P.addInst vars (copyParams dflt P.params)) (s, []) >>= _) = _
    rw [hl]
    change (P.addInst vars (copyParams dflt P.params) r inst >>= _) = _
    rw [he vars r hc]
    rfl
  unfold SetupFile.initialize
  rw [if_neg (by simp [hP.basis])]
  simp only [hv, convertLogjit_none _ _ hP.nologjit, hs, this]

/-- C119, which error: the first listed instrument that lacks observations raises `AssertionError`. -/
theorem C119_nodata (dflt : ℝ) (P : SetupFile) (option : Bool) (hP : SetupReady P option) (pre post : List String) (inst : String)
    (hin : P.instnames = pre ++ inst :: post) (hpre : ∀ i ∈ pre, InstReady P i) (hno : ∀ d ∈ P.data, d.tel ≠ inst) :
    P.initialize dflt option = .error .assertionError := by
  refine initialize_raises dflt P option hP pre post inst hin hpre _ (fun vars acc _ => ?_)
  have : P.rowsOf inst = [] := by
    rw [SetupFile.rowsOf, List.filter_eq_nil_iff]
    intro d hd
    simp [hno d hd]
  simp [SetupFile.addInst, this]

/-! ## C120 -/

/-- C120 is false: if `hnames` is defined but has no entry for a listed instrument, this instrument is not given a likelihood without GP; `KeyError` is raised instead,
although everything else about the setup file is right. -/
theorem C120_subset_violated (dflt : ℝ) (P : SetupFile) (option : Bool) (hP : SetupReady P option) (pre post : List String) (inst : String)
    (hin : P.instnames = pre ++ inst :: post) (hpre : ∀ i ∈ pre, InstReady P i) (d : Dict String (List Key)) (hd : P.hnames = some d)
    (hno : inst ∉ d.keys) (hdata : ∃ r ∈ P.data, r.tel = inst) : P.initialize dflt option = .error .keyError := by
  refine initialize_raises dflt P option hP pre post inst hin hpre _ (fun vars acc hc => ?_)
  have hrows : P.rowsOf inst ≠ [] := by
    obtain ⟨r, hm, ht⟩ := hdata
    exact List.ne_nil_of_mem (List.mem_filter.2 ⟨hm, by simp [ht]⟩)
  unfold SetupFile.addInst
  rw [if_neg hrows, (checkColumns_ok P vars).2 hc]
  simp only [SetupFile.newLike, hd, (Dict.get?_eq_none_iff _ _).2 hno]

/-- Non-vacuity of `C120_subset_violated`: a GP for `j` only. -/
example : (exampleSetup ["j", "k"] (some [("j", exampleHnames)])).initialize 0 false = .error .keyError :=
  C120_subset_violated 0 _ false (exampleSetup_ready _ _ _) ["j"] [] "k" rfl
    (fun i hi => exampleSetup_inst _ _ i (by left; simpa using hi) (by
      intro d hd
      cases hd
      have : i = "j" := by simpa using hi
      subst this
      exact ⟨rfl, by rfl⟩)) _ rfl (by simp [Dict.keys]) ⟨{ tel := "k", t := 2, y := 3, err := 1 }, by simp [exampleSetup], rfl⟩

/-! ## C121 -/

/-- C121 is false for GPs: if `hnames` is defined, the option `--decorr` has no effect: the posterior is the same with and without it. -/
theorem C121_gp_violated (dflt : ℝ) (P : SetupFile) (d : Dict String (List Key)) (hd : P.hnames = some d) (vs : List String) (hv : P.decorrVars = some vs)
    (hc : ∀ v ∈ vs, v ∈ P.columns) : P.initialize dflt true = P.initialize dflt false := by
  have hf : ∀ ip, P.addInst vs ip = P.addInst [] ip := by
    intro ip
    funext acc inst
    have h1 : P.newLike vs acc.1 inst = P.newLike [] acc.1 inst := by simp only [SetupFile.newLike, hd]
    simp only [SetupFile.addInst, h1, (checkColumns_ok P vs).2 hc, (checkColumns_ok P []).2 (by simp)]
  simp only [SetupFile.initialize, SetupFile.decorr, hv, hf, if_true, Bool.false_eq_true, if_false]

/-- C121 without GPs: with `--decorr` every listed instrument's likelihood has one coefficient per decorrelation variable, and the coefficient is a parameter of the
posterior with a row of its own. -/
theorem C121_white_partial (dflt : ℝ) (P : SetupFile) (hu : UserParams P.params) (hj : ∀ k, Key.inst .logjit k ∉ P.params.items.keys) (hh : P.hnames = none)
    (vs : List String) (hv : P.decorrVars = some vs) (r : SetupPost) (h : P.initialize dflt true = .ok r) :
    ∀ i ∈ P.instnames, ∃ L : RVLike, r.likes.get? i = some (.rv L) ∧ L.decParams = vs.map (fun d => "c1_" ++ d ++ ("_" ++ i)) ∧ L.decVars = vs.map String.toList ∧
      ∀ d ∈ vs, ∃ n, r.st.indices.get? (.other ("c1_" ++ d ++ ("_" ++ i))) = some n ∧ n < r.st.rows.length := by
  obtain ⟨_, vars, items, s, hvars, hi, hs, hl, hc⟩ := initialize_inv h
  simp only [SetupFile.decorr, hv, if_true] at hvars
  cases hvars
  rw [convertLogjit_none _ _ hj] at hi
  cases hi
  have hfin := instLoop_keeps dflt hu.good.nodup P.instnames [] (s, []) _ (start_inv hu vs hs) hl
  obtain ⟨l1, l2, l3⟩ := instLoop_holds _ _ _ hl (by simp) (by simp [Dict.keys])
  obtain ⟨_, hco⟩ := instLoop_coeffs hh _ _ _ hl
  have hall := instLoop_forall (P := P) (vars := vs) (fun i L => ∃ L' : RVLike, L = .rv L' ∧ L'.decParams = vs.map (fun d => "c1_" ++ d ++ ("_" ++ i)) ∧ L'.decVars = vs.map String.toList)
    (by
      intro i s x hx
      simp only [SetupFile.newLike, hh] at hx
      rcases h5 : RVLike.new s ((P.rowsOf i).map DataRow.obs) ("_" ++ i) vs (vs.map String.toList) with e | y
      · rw [h5] at hx; cases hx
      · rw [h5] at hx; cases hx
        obtain ⟨_, _, _, h6, h7⟩ := RVLike.new_inv h5
        exact ⟨_, rfl, h6, h7⟩) P.instnames _ _ hl (by simp)
  intro i hi
  have hik : i ∈ r.likes.keys := by
    have : i ∈ firsts P.instnames := (mem_firsts _ _).2 hi
    simp only [Dict.keys, List.map_nil, List.not_mem_nil, not_false_iff, decide_true, List.nil_append, List.filter_true] at l3
    rw [← l3] at this
    exact this
  obtain ⟨L, hL⟩ := Dict.exists_get?_of_mem _ hik
  obtain ⟨L', rfl, h1, h2⟩ := hall i L hL
  refine ⟨L', hL, h1, h2, ?_⟩
  intro d hd
  exact (owned_of_inv hfin.fresh.inv hfin.fresh.ui).1 _ (hco i hi d hd)

end Radvel
