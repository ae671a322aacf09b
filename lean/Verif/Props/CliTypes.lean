import Verif.Props.Cli
import Verif.Model.NestedSampling

/-!
# C146, C147: what the commands are asked to do
-/

namespace Radvel

theorem used_value {c : SubCmd} {ws : List Text} {uses : List OptUse} {d : Dict Text ArgVal} (hs : Spells c uses ws) (h : parseArgs (c.word :: ws) = some (some c, d)) {dest : String} {u : OptUse}
    (hu : LastUse uses dest u) : u.opt ∈ c.opts ∧ u.opt.dest = dest.toList ∧ ∃ x, Gives u.opt u.vals x ∧ attr d dest = .ok x := by
  obtain ⟨pre, post, e, h1, h2⟩ := hu
  obtain ⟨h3, -, x, h4⟩ := (spelled_good hs) u (by rw [e]; simp)
  exact ⟨h3, h1, x, h4, attr_ok ((C144_unique c ws uses d hs h _ _).mp (.inl ⟨pre, u, post, x, e, h1, h2, h4, rfl⟩))⟩

theorem unused_value {c : SubCmd} {ws : List Text} {uses : List OptUse} {d : Dict Text ArgVal} (hs : Spells c uses ws) (h : parseArgs (c.word :: ws) = some (some c, d)) {dest : String}
    (hu : Unused uses dest) {v : ArgVal} (hv : (c.opts.find? (fun o => decide (o.dest = dest.toList))).map CliOpt.default = some v) : attr d dest = .ok v := by
  refine attr_ok ((C144_unique c ws uses d hs h _ _).mp (.inr ⟨hu, ?_⟩))
  simp only [Option.map_eq_some_iff] at hv
  obtain ⟨o, h1, h2⟩ := hv
  obtain ⟨h3, pre, post, h4, h5⟩ := List.find?_eq_some_iff_append.mp h1
  exact .inl ⟨pre, o, post, h4, by simpa using h3, by simpa using h5, by rw [h2]⟩

theorem gives_many {o : CliOpt} {vs : List Text} {x : ArgVal} (h : Gives o vs x) (ha : o.action = .many) : x = .strs vs ∧ ∀ v ∈ vs, v ∈ o.choices := by
  cases h with
  | flag b hb => rw [ha] at hb; cases hb
  | one c v _ hb => rw [ha] at hb; cases hb
  | many _ _ _ hv => exact ⟨rfl, fun v hm => hv v hm⟩

theorem gives_flag {o : CliOpt} {vs : List Text} {x : ArgVal} {b : Bool} (h : Gives o vs x) (ha : o.action = .flag b) : x = .bool b := by
  cases h with
  | flag b' hb => rw [ha] at hb; cases hb; rfl
  | one c v _ hb => rw [ha] at hb; cases hb
  | many _ hb => rw [ha] at hb; cases hb

theorem mapM_words {α : Type} (f : Text → Except PyErr α) (word : α → Text) : ∀ vs : List Text, (∀ v ∈ vs, ∃ a, f v = .ok a ∧ word a = v) → ∃ l, vs.mapM f = .ok l ∧ l.map word = vs := by
  intro vs
  induction vs with
  | nil => intro _; exact ⟨[], rfl, rfl⟩
  | cons v vs ih =>
    intro h
    obtain ⟨a, h1, h2⟩ := h v (by simp)
    obtain ⟨l, h3, h4⟩ := ih (fun w hw => h w (by simp [hw]))
    refine ⟨a :: l, ?_, by rw [List.map_cons, h2, h4]⟩
    simp only [List.mapM_cons, h1, h3, bind, Except.bind, pure, Except.pure]

/-- C146: after `ic -t ...` the comparisons are those of the last `-t`, in order, and all of them are known. -/
theorem C146_ic_partial (ws : List Text) (uses : List OptUse) (d : Dict Text ArgVal) (hs : Spells .ic uses ws) (h : parseArgs ("ic".toList :: ws) = some (some .ic, d)) (u : OptUse)
    (hu : LastUse uses "type" u) (hn : Unused uses "simple") : ∃ cs, icTypes d = .ok cs ∧ cs.map compWord = u.vals := by
  obtain ⟨h1, h2, x, h3, h4⟩ := used_value (c := .ic) hs h hu
  have ho : ∀ o ∈ SubCmd.opts .ic, o.dest = "type".toList → o.action = .many ∧ ∀ v ∈ o.choices, ∃ a, icItem v = .ok a ∧ compWord a = v := by
    intro o ho hd
    have h5 : o = typeOpt (.str "trend".toList) ["nplanets", "e", "trend", "jit", "gp"] := by
      have : ∀ o ∈ SubCmd.opts .ic, o.dest = "type".toList → o = typeOpt (.str "trend".toList) ["nplanets", "e", "trend", "jit", "gp"] := by decide +kernel
      exact this o ho hd
    subst h5
    refine ⟨rfl, ?_⟩
    intro v hv
    have hv : v ∈ ["nplanets", "e", "trend", "jit", "gp"].map String.toList := hv
    simp only [List.map_cons, List.map_nil, List.mem_cons, List.not_mem_nil, or_false] at hv
    rcases hv with rfl | rfl | rfl | rfl | rfl
    · exact ⟨.nplanets, rfl, rfl⟩
    · exact ⟨.e, rfl, rfl⟩
    · exact ⟨.trend, rfl, rfl⟩
    · exact ⟨.jit, rfl, rfl⟩
    · exact ⟨.gp, rfl, rfl⟩
  obtain ⟨ha, hw⟩ := ho u.opt h1 h2
  obtain ⟨rfl, hc⟩ := gives_many h3 ha
  have hsimple : attr d "simple" = .ok (.bool false) := unused_value (c := .ic) hs h hn (by decide +kernel)
  obtain ⟨l, h5, h6⟩ := mapM_words icItem compWord u.vals (fun v hv => hw v (hc v hv))
  exact ⟨l, by simp only [icTypes, h4, hsimple, typeItems, h5, bind, Except.bind], h6⟩

/-- C146: with `--simple`, `ic` compares nothing and only the fitted model is described, whatever types are named. -/
theorem C146_simple (ws : List Text) (uses : List OptUse) (d : Dict Text ArgVal) (hs : Spells .ic uses ws) (h : parseArgs ("ic".toList :: ws) = some (some .ic, d)) (u : OptUse)
    (hu : LastUse uses "simple" u) : icTypes d = .ok [] := by
  obtain ⟨h1, h2, x, h3, h4⟩ := used_value (c := .ic) hs h hu
  have ho : ∀ o ∈ SubCmd.opts .ic, o.dest = "simple".toList → o.action = .flag true := by decide +kernel
  have := gives_flag h3 (ho u.opt h1 h2)
  subst this
  have ht : ∃ v, attr d "type" = .ok v := by
    obtain ⟨d', -, h5⟩ := C144_accepts .ic ws uses hs
    rcases h5 "type".toList with ⟨pre, w, post, y, e, h6, h7, -, -⟩ | ⟨h6, -⟩
    · obtain ⟨-, -, z, -, h8⟩ := used_value (c := .ic) (dest := "type") hs h ⟨pre, post, e, h6, h7⟩
      exact ⟨z, h8⟩
    · exact ⟨_, unused_value (c := .ic) (dest := "type") hs h h6 (by decide +kernel : _ = some (ArgVal.str "trend".toList))⟩
  obtain ⟨v, hv⟩ := ht
  simp only [icTypes, hv, h4, bind, Except.bind, pure, Except.pure]

/-- C146: after `table -t ...` the tables are those of the last `-t`, in order, and all of them are known. -/
theorem C146_table_partial (ws : List Text) (uses : List OptUse) (d : Dict Text ArgVal) (hs : Spells .table uses ws) (h : parseArgs ("table".toList :: ws) = some (some .table, d)) (u : OptUse)
    (hu : LastUse uses "type" u) : ∃ ts, tableTypes d = .ok ts ∧ ts.map tableWord = u.vals := by
  obtain ⟨h1, h2, x, h3, h4⟩ := used_value (c := .table) hs h hu
  have ho : ∀ o ∈ SubCmd.opts .table, o.dest = "type".toList → o.action = .many ∧ ∀ v ∈ o.choices, ∃ a, tableItem v = .ok a ∧ tableWord a = v := by
    intro o ho hd
    have h5 : o = typeOpt .none ["params", "priors", "rv", "ic_compare", "derived", "crit"] := by
      have : ∀ o ∈ SubCmd.opts .table, o.dest = "type".toList → o = typeOpt .none ["params", "priors", "rv", "ic_compare", "derived", "crit"] := by decide +kernel
      exact this o ho hd
    subst h5
    refine ⟨rfl, ?_⟩
    intro v hv
    have hv : v ∈ ["params", "priors", "rv", "ic_compare", "derived", "crit"].map String.toList := hv
    simp only [List.map_cons, List.map_nil, List.mem_cons, List.not_mem_nil, or_false] at hv
    rcases hv with rfl | rfl | rfl | rfl | rfl | rfl
    · exact ⟨.params, rfl, rfl⟩
    · exact ⟨.priors, rfl, rfl⟩
    · exact ⟨.rv, rfl, rfl⟩
    · exact ⟨.icCompare, rfl, rfl⟩
    · exact ⟨.derived, rfl, rfl⟩
    · exact ⟨.crit, rfl, rfl⟩
  obtain ⟨ha, hw⟩ := ho u.opt h1 h2
  obtain ⟨rfl, hc⟩ := gives_many h3 ha
  obtain ⟨l, h5, h6⟩ := mapM_words tableItem tableWord u.vals (fun v hv => hw v (hc v hv))
  exact ⟨l, by simp only [tableTypes, h4, typeItems, h5, bind, Except.bind], h6⟩

theorem filterMap_words (vs : List Text) (h : ∀ v ∈ vs, ∃ a, plotItem v = some a ∧ plotWord a = v) : (vs.filterMap plotItem).map plotWord = vs := by
  induction vs with
  | nil => rfl
  | cons v vs ih =>
    obtain ⟨a, h1, h2⟩ := h v (by simp)
    rw [List.filterMap_cons, h1]
    simp only [List.map_cons]
    rw [h2, ih (fun w hw => h w (by simp [hw]))]

/-- C146: after `plot -t ...` the plots are those of the last `-t`, in order, and none of them is passed over. -/
theorem C146_plot_partial (ws : List Text) (uses : List OptUse) (d : Dict Text ArgVal) (hs : Spells .plot uses ws) (h : parseArgs ("plot".toList :: ws) = some (some .plot, d)) (u : OptUse)
    (hu : LastUse uses "type" u) : ∃ ts, plotTypes d = .ok ts ∧ ts.map plotWord = u.vals := by
  obtain ⟨h1, h2, x, h3, h4⟩ := used_value (c := .plot) hs h hu
  have ho : ∀ o ∈ SubCmd.opts .plot, o.dest = "type".toList → o.action = .many ∧ ∀ v ∈ o.choices, ∃ a, plotItem v = some a ∧ plotWord a = v := by
    intro o ho hd
    have h5 : o = typeOpt .none ["rv", "auto", "corner", "trend", "derived"] := by
      have : ∀ o ∈ SubCmd.opts .plot, o.dest = "type".toList → o = typeOpt .none ["rv", "auto", "corner", "trend", "derived"] := by decide +kernel
      exact this o ho hd
    subst h5
    refine ⟨rfl, ?_⟩
    intro v hv
    have hv : v ∈ ["rv", "auto", "corner", "trend", "derived"].map String.toList := hv
    simp only [List.map_cons, List.map_nil, List.mem_cons, List.not_mem_nil, or_false] at hv
    rcases hv with rfl | rfl | rfl | rfl | rfl
    · exact ⟨.rv, rfl, rfl⟩
    · exact ⟨.auto, rfl, rfl⟩
    · exact ⟨.corner, rfl, rfl⟩
    · exact ⟨.trend, rfl, rfl⟩
    · exact ⟨.derived, rfl, rfl⟩
  obtain ⟨ha, hw⟩ := ho u.opt h1 h2
  obtain ⟨rfl, hc⟩ := gives_many h3 ha
  exact ⟨u.vals.filterMap plotItem, by simp only [plotTypes, h4, typeItems, bind, Except.bind, pure, Except.pure], filterMap_words _ (fun v hv => hw v (hc v hv))⟩

/-- C146 violated: `radvel ic` without `-t` and `--simple` always fails an assertion: the default of `-t` is the text `trend` and not a list (/repo/radvel/cli.py 172), so its letters are taken for comparisons. -/
theorem C146_ic_violated (ws : List Text) (uses : List OptUse) (d : Dict Text ArgVal) (hs : Spells .ic uses ws) (h : parseArgs ("ic".toList :: ws) = some (some .ic, d)) (hu : Unused uses "type")
    (hn : Unused uses "simple") : icTypes d = .error .assertionError := by
  have h1 : attr d "type" = .ok (.str "trend".toList) := unused_value (c := .ic) hs h hu (by decide +kernel)
  have h2 : attr d "simple" = .ok (.bool false) := unused_value (c := .ic) hs h hn (by decide +kernel)
  simp only [icTypes, h1, h2, bind, Except.bind]
  rfl

/-- C146 violated: `radvel table` and `radvel plot` without `-t` end in a TypeError: there is no default and the option is not required (/repo/radvel/cli.py 50, 201). -/
theorem C146_type_violated (c : SubCmd) (hc : c = .plot ∨ c = .table) (ws : List Text) (uses : List OptUse) (d : Dict Text ArgVal) (hs : Spells c uses ws) (h : parseArgs (c.word :: ws) = some (some c, d))
    (hu : Unused uses "type") : plotTypes d = .error .typeError ∧ tableTypes d = .error .typeError := by
  have h1 : attr d "type" = .ok .none := by
    rcases hc with rfl | rfl
    · exact unused_value hs h hu (by decide +kernel)
    · exact unused_value hs h hu (by decide +kernel)
  constructor
  · simp only [plotTypes, h1, bind, Except.bind, typeItems]
  · simp only [tableTypes, h1, bind, Except.bind, typeItems]

/-- C146: the sampler requested of `plot`, `table`, `derive` and `report` is always one that `_pick_sampler` knows. -/
theorem C146_sampler (c : SubCmd) (hc : c = .plot ∨ c = .table ∨ c = .derive ∨ c = .report) (ws : List Text) (d : Dict Text ArgVal) (h : parseArgs (c.word :: ws) = some (some c, d)) :
    ∃ t, samplerText d = .ok t ∧ (t = "auto".toList ∨ t = "mcmc".toList ∨ t = "ns".toList) := by
  have ho : ∀ o ∈ c.opts, o.dest = "sampler".toList → o = samplerOpt := by rcases hc with rfl | rfl | rfl | rfl <;> decide +kernel
  obtain ⟨o, h1, h2, v, h3, h4⟩ := attr_value h "sampler".toList (by rcases hc with rfl | rfl | rfl | rfl <;> decide +kernel)
  have := ho o h1 h2
  subst this
  have h3 : attr d "sampler" = .ok v := attr_ok h3
  rcases h4 with rfl | ⟨vals, hg⟩
  · exact ⟨"auto".toList, by simp only [samplerText, h3, bind, Except.bind]; rfl, .inl rfl⟩
  · cases hg with
    | flag b hb => cases hb
    | one c t _ ha hch hw =>
      cases ha
      cases hw
      refine ⟨t, by simp only [samplerText, h3, bind, Except.bind]; rfl, ?_⟩
      rcases hch with hch | hch
      · cases hch
      · have hch : t ∈ ["mcmc", "ns", "auto"].map String.toList := hch
        simp only [List.map_cons, List.map_nil, List.mem_cons, List.not_mem_nil, or_false] at hch
        rcases hch with rfl | rfl | rfl
        · exact .inr (.inl rfl)
        · exact .inr (.inr rfl)
        · exact .inl rfl
    | many _ ha => cases ha

/-- C146: the sampler requested of `ns` is always one that `nested_sampling.run` knows. -/
theorem C146_ns (ws : List Text) (d : Dict Text ArgVal) (h : parseArgs ("ns".toList :: ws) = some (some .ns, d)) : ∃ t, samplerText d = .ok t ∧ ∀ (pk : Packages) (a : NsArgs), a.sampler = t →
    startSampler pk a = runUltranest pk a.outdir a.proceed a.sampler_kwargs a.run_kwargs ∨ startSampler pk a = runDynesty pk .dynestyStatic a.outdir a.proceed a.sampler_kwargs a.run_kwargs ∨
    startSampler pk a = runDynesty pk .dynestyDynamic a.outdir a.proceed a.sampler_kwargs a.run_kwargs ∨ startSampler pk a = startMultinest pk a ∨
    startSampler pk a = runNautilus pk a.outdir a.proceed a.sampler_kwargs a.run_kwargs := by
  have ho : ∀ o ∈ SubCmd.opts .ns, o.dest = "sampler".toList → o = oneOpt ["--sampler"] "sampler" .str (.str "ultranest".toList) ["dynesty-static", "dynesty-dynamic", "multinest", "ultranest", "nautilus"] := by
    decide +kernel
  obtain ⟨o, h1, h2, v, h3, h4⟩ := attr_value (c := .ns) h "sampler".toList (by decide +kernel)
  have := ho o h1 h2
  subst this
  have h3 : attr d "sampler" = .ok v := attr_ok h3
  rcases h4 with rfl | ⟨vals, hg⟩
  · refine ⟨"ultranest".toList, by simp only [samplerText, h3, bind, Except.bind]; rfl, fun pk a ha => .inl ?_⟩
    rw [startSampler, ha, if_pos (by decide)]
  · cases hg with
    | flag b hb => cases hb
    | one c t _ ha hch hw =>
      cases ha
      cases hw
      refine ⟨t, by simp only [samplerText, h3, bind, Except.bind]; rfl, fun pk a ha => ?_⟩
      rcases hch with hch | hch
      · cases hch
      · have hch : t ∈ ["dynesty-static", "dynesty-dynamic", "multinest", "ultranest", "nautilus"].map String.toList := hch
        simp only [List.map_cons, List.map_nil, List.mem_cons, List.not_mem_nil, or_false] at hch
        rcases hch with rfl | rfl | rfl | rfl | rfl
        · exact .inr (.inl (by rw [startSampler, ha, if_neg (by decide), if_pos (by decide)]))
        · exact .inr (.inr (.inl (by rw [startSampler, ha, if_neg (by decide), if_neg (by decide), if_pos (by decide)])))
        · exact .inr (.inr (.inr (.inl (by rw [startSampler, ha, if_neg (by decide), if_neg (by decide), if_neg (by decide), if_pos (by decide)]))))
        · exact .inl (by rw [startSampler, ha, if_pos (by decide)])
        · exact .inr (.inr (.inr (.inr (by rw [startSampler, ha, if_neg (by decide), if_neg (by decide), if_neg (by decide), if_neg (by decide), if_pos (by decide)]))))
    | many _ ha => cases ha

/-! ### flags -/

/-- C147: `ic` mixes the comparisons unless the last of `-m` and `-u` is `-u`, and fixes the jitters only if the last of `-f` and `-n` is `-f`. -/
theorem C147_ic_partial (ws : List Text) (uses : List OptUse) (d : Dict Text ArgVal) (hs : Spells .ic uses ws) (h : parseArgs ("ic".toList :: ws) = some (some .ic, d)) :
    (attr d "mixed" = .ok (.bool true) ∨ attr d "mixed" = .ok (.bool false)) ∧
    (attr d "mixed" = .ok (.bool false) ↔ ∃ u, LastUse uses "mixed" u ∧ (u.name = "-u".toList ∨ u.name = "--un-mixed".toList)) ∧
    (attr d "fixjitter" = .ok (.bool true) ∨ attr d "fixjitter" = .ok (.bool false)) ∧
    (attr d "fixjitter" = .ok (.bool true) ↔ ∃ u, LastUse uses "fixjitter" u ∧ (u.name = "-f".toList ∨ u.name = "--fixjitter".toList)) := by
  have last : ∀ dest : String, Unused uses dest ∨ ∃ u, LastUse uses dest u := by
    intro dest
    have hd := (C144_accepts .ic ws uses hs)
    obtain ⟨d', -, h2⟩ := hd
    rcases h2 dest.toList with ⟨pre, u, post, x, e, h3, h4, -, -⟩ | ⟨h3, -⟩
    · exact .inr ⟨u, pre, post, e, h3, h4⟩
    · exact .inl h3
  have names : ∀ u ∈ uses, u.opt ∈ SubCmd.opts .ic ∧ u.name ∈ u.opt.names := fun u hu => ⟨((spelled_good hs) u hu).1, ((spelled_good hs) u hu).2.1⟩
  have key : ∀ (dest : String) (b0 b1 : Bool) (n1 n2 m1 m2 : Text), b0 = !b1 →
      (∀ o ∈ SubCmd.opts .ic, o.dest = dest.toList → (o.action = .flag b1 ∧ o.names = [n1, n2]) ∨ (o.action = .flag b0 ∧ o.names = [m1, m2])) → n1 ∉ [m1, m2] → n2 ∉ [m1, m2] →
      ((SubCmd.opts .ic).find? (fun o => decide (o.dest = dest.toList))).map CliOpt.default = some (.bool b0) →
      (attr d dest = .ok (.bool b0) ∨ attr d dest = .ok (.bool b1)) ∧ (attr d dest = .ok (.bool b1) ↔ ∃ u, LastUse uses dest u ∧ (u.name = n1 ∨ u.name = n2)) := by
    intro dest b0 b1 n1 n2 m1 m2 hb hopts hn1 hn2 hdef
    rcases last dest with hu | ⟨u, hu⟩
    · have h1 := unused_value (c := .ic) hs h hu hdef
      refine ⟨.inl h1, ?_, ?_⟩
      · intro h2
        rw [h1] at h2
        have : b0 = b1 := by simpa using h2
        rw [this] at hb; cases b1 <;> cases hb
      · rintro ⟨u, ⟨pre, post, e, h2, -⟩, -⟩
        exact absurd h2 (hu u (by rw [e]; simp))
    · obtain ⟨h1, h2, x, h3, h4⟩ := used_value (c := .ic) hs h hu
      have hmem : u ∈ uses := by obtain ⟨pre, post, e, -⟩ := hu; rw [e]; simp
      have hname := (names u hmem).2
      rcases hopts u.opt h1 h2 with ⟨ha, hn⟩ | ⟨ha, hn⟩
      · have := gives_flag h3 ha
        subst this
        rw [hn] at hname
        exact ⟨.inr h4, fun _ => ⟨u, hu, by simpa using hname⟩, fun _ => h4⟩
      · have := gives_flag h3 ha
        subst this
        rw [hn] at hname
        refine ⟨.inl h4, ?_, ?_⟩
        · intro h5
          rw [h4] at h5
          have : b0 = b1 := by simpa using h5
          rw [this] at hb; cases b1 <;> cases hb
        · rintro ⟨w, ⟨pre', post', e', hw1, hw2⟩, hw⟩
          exfalso
          obtain ⟨-, -, x', h3', h4'⟩ := used_value (c := .ic) hs h ⟨pre', post', e', hw1, hw2⟩
          have hwm : w ∈ uses := by rw [e']; simp
          have hwn := (names w hwm).2
          rcases hopts w.opt (names w hwm).1 hw1 with ⟨ha', hn'⟩ | ⟨ha', hn'⟩
          · have := gives_flag h3' ha'
            subst this
            rw [h4] at h4'
            have : b0 = b1 := by simpa using h4'
            rw [this] at hb; cases b1 <;> cases hb
          · rw [hn'] at hwn
            rcases hw with rfl | rfl
            · exact hn1 hwn
            · exact hn2 hwn
  obtain ⟨a1, a2⟩ := key "mixed" true false "-u".toList "--un-mixed".toList "-m".toList "--mixed".toList rfl (by decide +kernel) (by decide +kernel) (by decide +kernel) (by decide +kernel)
  obtain ⟨b1, b2⟩ := key "fixjitter" false true "-f".toList "--fixjitter".toList "-n".toList "--no-fixjitter".toList rfl (by decide +kernel) (by decide +kernel) (by decide +kernel) (by decide +kernel)
  exact ⟨a1, a2, b1.symm, b2⟩

/-- C147 violated: `--serial` with any value but the empty one means serial, `--serial False` too: `type=bool` (/repo/radvel/cli.py 114) is `bool(text)`. -/
theorem C147_serial_violated (ws : List Text) (uses : List OptUse) (d : Dict Text ArgVal) (hs : Spells .mcmc uses ws) (h : parseArgs ("mcmc".toList :: ws) = some (some .mcmc, d)) (u : OptUse)
    (hu : LastUse uses "serial" u) (hv : u.vals ≠ [[]]) : attr d "serial" = .ok (.bool true) := by
  obtain ⟨h1, h2, x, h3, h4⟩ := used_value (c := .mcmc) hs h hu
  have ho : ∀ o ∈ SubCmd.opts .mcmc, o.dest = "serial".toList → o.action = .one .bool := by decide +kernel
  have ha := ho _ h1 h2
  obtain ⟨nm, o, vals⟩ := u
  cases h3 with
  | flag b hb => rw [ha] at hb; cases hb
  | one c t _ hb _ hw =>
    rw [ha] at hb
    cases hb
    cases hw
    rw [h4]
    have : t ≠ [] := fun e => hv (by rw [e])
    simp [this]
  | many _ hb => rw [ha] at hb; cases hb

/-! ### concrete command lines -/

/-- `radvel ic -s a.py -u -t e trend` -/
def icWitness : List OptUse :=
  [⟨"-s".toList, oneOpt ["-s", "--setup"] "setupfn" .str .none, ["a.py".toList]⟩, ⟨"-u".toList, flagOpt ["-u", "--un-mixed"] "mixed" false, []⟩,
   ⟨"-t".toList, typeOpt (.str "trend".toList) ["nplanets", "e", "trend", "jit", "gp"], ["e".toList, "trend".toList]⟩]

theorem icWitness_good : ∀ u ∈ icWitness, GoodUse (SubCmd.opts .ic) u := by
  intro u hu
  simp only [icWitness, List.mem_cons, List.not_mem_nil, or_false] at hu
  rcases hu with rfl | rfl | rfl
  · exact ⟨by decide +kernel, by decide +kernel, _, .one .str _ _ rfl (.inl rfl) (.str _)⟩
  · exact ⟨by decide +kernel, by decide +kernel, _, .flag false rfl⟩
  · refine ⟨by decide +kernel, by decide +kernel, _, .many _ rfl (by decide) ?_⟩
    have h1 : ∀ v ∈ ["e".toList, "trend".toList], v ∈ (typeOpt (.str "trend".toList) ["nplanets", "e", "trend", "jit", "gp"]).choices := by decide +kernel
    exact h1

/-- Non-vacuity of `C146_ic_partial` and `C147_ic_partial`: two comparisons, not mixed. -/
example : ∃ d, parseArgs ("ic".toList :: icWitness.flatMap OptUse.words) = some (some .ic, d) ∧ icTypes d = .ok [.e, .trend] ∧ attr d "mixed" = .ok (.bool false) := by
  have hs : Spells .ic icWitness (icWitness.flatMap OptUse.words) := spells_plain (icWitness_good) (by decide +kernel)
  obtain ⟨d, h, -⟩ := C144_accepts .ic _ _ hs
  refine ⟨d, h, ?_, ?_⟩
  · obtain ⟨cs, h1, h2⟩ := C146_ic_partial _ _ d hs h _ ⟨icWitness.take 2, [], rfl, rfl, by simp⟩ (by unfold Unused; decide +kernel)
    rw [h1]
    have h2 : cs.map compWord = [Comp.e, Comp.trend].map compWord := h2
    have hi : Function.Injective compWord := by intro a b; cases a <;> cases b <;> decide
    rw [hi.list_map h2]
  · exact ((C147_ic_partial _ _ d hs h).2.1).mpr ⟨_, ⟨icWitness.take 1, icWitness.drop 2, rfl, rfl, by decide +kernel⟩, .inl rfl⟩

/-- `radvel ic -s a.py -u -t e trend --simple` -/
def simpleWitness : List OptUse := icWitness ++ [⟨"--simple".toList, flagOpt ["--simple"] "simple" true, []⟩]

/-- Non-vacuity of `C146_simple`: `radvel ic -s a.py -u -t e trend --simple`. -/
example : ∃ d, parseArgs ("ic".toList :: simpleWitness.flatMap OptUse.words) = some (some .ic, d) ∧ icTypes d = .ok [] := by
  have hs : Spells .ic simpleWitness (simpleWitness.flatMap OptUse.words) := spells_plain (fun u hu => by
    rcases List.mem_append.1 (show u ∈ icWitness ++ _ from hu) with hu | hu
    · exact icWitness_good u hu
    · rw [List.mem_singleton.1 hu]
      exact ⟨by decide +kernel, by decide +kernel, _, .flag true rfl⟩) (by decide +kernel)
  obtain ⟨d, h, -⟩ := C144_accepts .ic _ _ hs
  exact ⟨d, h, C146_simple _ _ d hs h _ ⟨icWitness, [], rfl, rfl, by simp⟩⟩

/-- Non-vacuity of `C146_ic_violated`: `radvel ic -s a.py -u`. -/
example : ∃ d, parseArgs ["ic".toList, "-s".toList, "a.py".toList, "-u".toList] = some (some .ic, d) ∧ icTypes d = .error .assertionError := by
  have hs : Spells .ic (icWitness.take 2) ["-s".toList, "a.py".toList, "-u".toList] := spells_plain (fun u hu => icWitness_good u (List.mem_of_mem_take hu)) (by decide +kernel)
  obtain ⟨d, h, -⟩ := C144_accepts .ic _ _ hs
  exact ⟨d, h, C146_ic_violated _ _ d hs h (by unfold Unused; decide +kernel) (by unfold Unused; decide +kernel)⟩

/-- Non-vacuity of `C146_type_violated`, `C146_sampler` and `C146_ns`: command lines with nothing but the subcommand. -/
example : ∃ d, parseArgs ["plot".toList] = some (some .plot, d) ∧ plotTypes d = .error .typeError ∧ ∃ t, samplerText d = .ok t := by
  have hs : Spells .plot [] [] := .nil
  obtain ⟨d, h, -⟩ := C144_accepts .plot _ _ hs
  obtain ⟨t, ht, -⟩ := C146_sampler .plot (.inl rfl) _ d h
  exact ⟨d, h, (C146_type_violated .plot (.inl rfl) _ _ d hs h (by simp [Unused])).1, t, ht⟩

example : ∃ d t, parseArgs ["ns".toList] = some (some .ns, d) ∧ samplerText d = .ok t := by
  obtain ⟨d, h, -⟩ := C144_accepts .ns [] [] .nil
  obtain ⟨t, ht, -⟩ := C146_ns _ d h
  exact ⟨d, t, h, ht⟩

/-- `radvel plot -t rv corner` and `radvel table -t rv ic_compare` -/
def typesWitness (c : SubCmd) : List OptUse :=
  if c = .plot then [⟨"-t".toList, typeOpt .none ["rv", "auto", "corner", "trend", "derived"], ["rv".toList, "corner".toList]⟩]
  else [⟨"-t".toList, typeOpt .none ["params", "priors", "rv", "ic_compare", "derived", "crit"], ["rv".toList, "ic_compare".toList]⟩]

theorem typesWitness_good (c : SubCmd) (hc : c = .plot ∨ c = .table) : ∀ u ∈ typesWitness c, GoodUse c.opts u := by
  intro u hu
  rcases hc with rfl | rfl
  · simp only [typesWitness, if_true, List.mem_cons, List.not_mem_nil, or_false] at hu
    subst hu
    refine ⟨by decide +kernel, by decide +kernel, _, .many _ rfl (by decide) ?_⟩
    have h1 : ∀ v ∈ ["rv".toList, "corner".toList], v ∈ (typeOpt .none ["rv", "auto", "corner", "trend", "derived"]).choices := by decide +kernel
    exact h1
  · have hu : u ∈ [(⟨"-t".toList, typeOpt .none ["params", "priors", "rv", "ic_compare", "derived", "crit"], ["rv".toList, "ic_compare".toList]⟩ : OptUse)] := hu
    simp only [List.mem_cons, List.not_mem_nil, or_false] at hu
    subst hu
    refine ⟨by decide +kernel, by decide +kernel, _, .many _ rfl (by decide) ?_⟩
    have h1 : ∀ v ∈ ["rv".toList, "ic_compare".toList], v ∈ (typeOpt .none ["params", "priors", "rv", "ic_compare", "derived", "crit"]).choices := by decide +kernel
    exact h1

/-- Non-vacuity of `C146_plot_partial`. -/
example : ∃ d ts, parseArgs ["plot".toList, "-t".toList, "rv".toList, "corner".toList] = some (some .plot, d) ∧ plotTypes d = .ok ts ∧ ts.map plotWord = ["rv".toList, "corner".toList] := by
  have hs : Spells .plot (typesWitness .plot) ["-t".toList, "rv".toList, "corner".toList] := spells_plain (typesWitness_good .plot (.inl rfl)) (by decide +kernel)
  obtain ⟨d, h, -⟩ := C144_accepts .plot _ _ hs
  obtain ⟨ts, h1, h2⟩ := C146_plot_partial _ _ d hs h _ ⟨[], [], rfl, rfl, by simp⟩
  exact ⟨d, ts, h, h1, h2⟩

/-- Non-vacuity of `C146_table_partial`. -/
example : ∃ d ts, parseArgs ["table".toList, "-t".toList, "rv".toList, "ic_compare".toList] = some (some .table, d) ∧ tableTypes d = .ok ts ∧ ts.map tableWord = ["rv".toList, "ic_compare".toList] := by
  have hs : Spells .table (typesWitness .table) ["-t".toList, "rv".toList, "ic_compare".toList] := spells_plain (typesWitness_good .table (.inr rfl)) (by decide +kernel)
  obtain ⟨d, h, -⟩ := C144_accepts .table _ _ hs
  obtain ⟨ts, h1, h2⟩ := C146_table_partial _ _ d hs h _ ⟨[], [], rfl, rfl, by simp⟩
  exact ⟨d, ts, h, h1, h2⟩

/-- Non-vacuity of `C147_serial_violated`: `radvel mcmc --serial False`. -/
example : ∃ d, parseArgs ["mcmc".toList, "--serial".toList, "False".toList] = some (some .mcmc, d) ∧ attr d "serial" = .ok (.bool true) := by
  have hs : Spells .mcmc [⟨"--serial".toList, oneOpt ["--serial"] "serial" .bool (.bool false), ["False".toList]⟩] ["--serial".toList, "False".toList] := by
    refine spells_plain (uses := [⟨"--serial".toList, oneOpt ["--serial"] "serial" .bool (.bool false), ["False".toList]⟩]) ?_ (by decide +kernel)
    intro u hu
    simp only [List.mem_cons, List.not_mem_nil, or_false] at hu
    subst hu
    exact ⟨by decide +kernel, by decide +kernel, _, .one .bool _ _ rfl (.inl rfl) (.bool _)⟩
  obtain ⟨d, h, -⟩ := C144_accepts .mcmc _ _ hs
  exact ⟨d, h, C147_serial_violated _ _ d hs h _ ⟨[], [], rfl, rfl, by simp⟩ (by decide)⟩

end Radvel
