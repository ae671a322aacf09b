import Verif.Props.CliDir
import Verif.Spec.CliMcmc

/-!
# C153: what is typed reaches the sampler
-/

namespace Radvel

/-- The attribute that holds an option of `mcmc`. -/
theorem setting_keyword : ∀ x ∈ mcmcSettings, ∃ dest, (x.1, dest) ∈ mcmcKeywords ∧ (∀ y ∈ mcmcKeywords, y.1.toList = x.1.toList → y.2 = dest) ∧
    ∀ o ∈ SubCmd.mcmc.opts, (o.dest = dest.toList ↔ x.2.toList ∈ o.names) ∧ (x.2.toList ∈ o.names → o.names = [x.2.toList]) := by
  have h : ∀ x ∈ mcmcSettings, ∃ y ∈ mcmcKeywords, y.1 = x.1 ∧ (∀ z ∈ mcmcKeywords, z.1.toList = x.1.toList → z.2 = y.2) ∧
    ∀ o ∈ SubCmd.mcmc.opts, (o.dest = y.2.toList ↔ x.2.toList ∈ o.names) ∧ (x.2.toList ∈ o.names → o.names = [x.2.toList]) := by decide +kernel
  intro x hx
  obtain ⟨y, h1, h2, h3⟩ := h x hx
  exact ⟨y.2, by rw [← h2]; exact h1, h3⟩

theorem dest_ne {x : String × String} (h : x ∈ mcmcKeywords) : x.2.toList ≠ "outputdir".toList := by
  revert h
  revert x
  have : ∀ x ∈ mcmcKeywords, x.2.toList ≠ "outputdir".toList := by decide +kernel
  exact fun {x} h => this x h

theorem keywords_nodup : (mcmcKeywords.map fun x => x.1.toList).Nodup ∧ "savename".toList ∉ (mcmcKeywords.map fun x => x.1.toList) ∧ "proceedname".toList ∉ (mcmcKeywords.map fun x => x.1.toList) := by
  decide +kernel

/-- A list of keywords that was read. -/
theorem mapM_keyword {d : Dict Text ArgVal} : ∀ {l : List (String × String)} {r : List (Text × ArgVal)}, l.mapM (keywordOf d) = .ok r →
    r.map Prod.fst = l.map (fun x => x.1.toList) ∧ ∀ x ∈ l, ∃ v, attr d x.2 = .ok v ∧ (x.1.toList, v) ∈ r
  | [], r, h => by
    rw [List.mapM_nil] at h
    cases h
    simp
  | x :: l, r, h => by
    rw [List.mapM_cons] at h
    rcases ha : attr d x.2 with e | v
    · simp only [keywordOf, ha, bind, Except.bind] at h
      cases h
    · rcases hm : l.mapM (keywordOf d) with e | r'
      · simp only [keywordOf, ha, bind, Except.bind] at h
        rw [hm] at h
        cases h
      · simp only [keywordOf, ha, bind, Except.bind] at h
        rw [hm] at h
        cases h
        obtain ⟨h1, h2⟩ := mapM_keyword hm
        refine ⟨by simp [h1], ?_⟩
        intro y hy
        rcases List.mem_cons.1 hy with rfl | hy
        · exact ⟨v, ha, List.mem_cons_self⟩
        · obtain ⟨w, h3, h4⟩ := h2 y hy
          exact ⟨w, h3, List.mem_cons_of_mem _ h4⟩

/-- `main` changes no attribute but the output directory. -/
theorem main_attr {d d' : Dict Text ArgVal} {s : OS} (h : (cliMain d s).2 = .ok d') {k : Text} (hk : k ≠ "outputdir".toList) : Dict.get? d' k = Dict.get? d k := by
  have ho : ∀ d1 t, outputDir d = .ok (d1, t) → Dict.get? d1 k = Dict.get? d k := by
    intro d1 t he
    unfold outputDir at he
    rcases h1 : attr d "outputdir" with e | v
    · rw [h1] at he; cases he
    · simp only [h1, bind, Except.bind] at he
      rcases h2 : attr d "setupfn" with e | f
      · cases v <;> simp only [h2] at he <;> cases he
        rfl
      · cases v <;> simp only [h2] at he <;> first | (cases he; rfl) | (cases f <;> cases he; exact Dict.get?_set_ne _ _ (fun x => hk x.symm))
  unfold cliMain at h
  rcases he : outputDir d with e | ⟨d1, t⟩
  · rw [he] at h; cases h
  · rw [he] at h
    simp only at h
    rcases hm : makeDir t s with ⟨s1, e | u⟩
    · rw [hm] at h; cases h
    · rw [hm] at h
      cases h
      exact ho _ _ he

theorem keys_of_call {d : Dict Text ArgVal} {call : Dict Text ArgVal} (h : mcmcCall d = .ok call) :
    (Dict.keys call).Nodup ∧ ∀ x ∈ mcmcKeywords, ∃ v, attr d x.2 = .ok v ∧ Dict.get? call x.1.toList = some v := by
  unfold mcmcCall at h
  rcases hb : backendLoc d with e | loc
  · rw [hb] at h; cases h
  · rcases hm : mcmcKeywords.mapM (keywordOf d) with e | l
    · simp only [hb, hm, bind, Except.bind] at h; cases h
    · simp only [hb, hm, bind, Except.bind, pure, Except.pure] at h
      have h := Except.ok.inj h
      subst h
      obtain ⟨h1, h2⟩ := mapM_keyword hm
      have hk : (Dict.keys (l ++ [("savename".toList, loc), ("proceedname".toList, loc)])).Nodup := by
        unfold Dict.keys
        rw [List.map_append, h1]
        obtain ⟨n1, n2, n3⟩ := keywords_nodup
        rw [List.nodup_append]
        refine ⟨n1, by simp, ?_⟩
        intro a ha b hb e
        subst e
        simp only [List.map_cons, List.map_nil, List.mem_cons, List.not_mem_nil, or_false] at hb
        rcases hb with rfl | rfl
        · exact n2 ha
        · exact n3 ha
      refine ⟨hk, fun x hx => ?_⟩
      obtain ⟨v, h3, h4⟩ := h2 x hx
      exact ⟨v, h3, Dict.get?_of_mem_nodup _ hk (List.mem_append_left _ h4)⟩

/-- **C153**: for every accepted command line, each setting of the sampler has the value typed last for its option, whatever the other words are. -/
theorem C153_typed_partial (ws : List Text) (uses : List OptUse) (d d' call : Dict Text ArgVal) (s : OS) (hp : parseArgs (SubCmd.mcmc.word :: ws) = some (some .mcmc, d)) (hs : Spells .mcmc uses ws)
    (hm : (cliMain d s).2 = .ok d') (hc : mcmcCall d' = .ok call) (setting option : String) (hx : (setting, option) ∈ mcmcSettings) (u : OptUse) (hu : LastNamed uses option u) (v : ArgVal) :
    Gives u.opt u.vals v ↔ Dict.get? call setting.toList = some v := by
  obtain ⟨dest, hk, -, ho⟩ := setting_keyword _ hx
  obtain ⟨w, ha, hg⟩ := (keys_of_call hc).2 _ hk
  rw [hg]
  obtain ⟨pre, post, e, hn, hl⟩ := hu
  have hgood := spelled_good hs
  have hmem : u ∈ uses := by rw [e]; simp
  have hud : u.opt.dest = dest.toList := ((ho _ (hgood u hmem).1).1).2 (by rw [← hn]; exact (hgood u hmem).2.1)
  have hpost : ∀ w ∈ post, w.opt.dest ≠ dest.toList := by
    intro x hx' he
    have hxm : x ∈ uses := by rw [e]; simp [hx']
    have h1 := ho _ (hgood x hxm).1
    have h2 := h1.2 (h1.1.1 he)
    have := (hgood x hxm).2.1
    rw [h2] at this
    exact hl x hx' (List.mem_singleton.1 this)
  have hw := attr_eq.1 ha
  rw [main_attr hm (dest_ne hk)] at hw
  obtain ⟨y, hy⟩ := (hgood u hmem).2.2
  have key : ∀ v, Gives u.opt u.vals v → w = v := fun v hv => by
    have := (C144_unique .mcmc ws uses d hs hp dest.toList (some v)).1 (.inl ⟨pre, u, post, v, e, hud, hpost, hv, rfl⟩)
    rw [hw] at this
    exact Option.some.inj this
  constructor
  · intro hv; rw [key v hv]
  · intro hv
    have := key y hy
    rw [← Option.some.inj hv, this]
    exact hy

/-- The defaults of the options. -/
theorem default_library : ∀ x ∈ mcmcSettings, x.1 ≠ "thin" → ∀ y ∈ mcmcKeywords, y.1 = x.1 → ∀ o ∈ SubCmd.mcmc.opts, o.dest = y.2.toList → (x.1, o.default) ∈ libraryDefaults := by decide +kernel

/-- **C153**: a setting whose option is not used has the value that `radvel.mcmc` gives it, except `thin`. -/
theorem C153_left_out_partial (ws : List Text) (uses : List OptUse) (d d' call : Dict Text ArgVal) (s : OS) (hp : parseArgs (SubCmd.mcmc.word :: ws) = some (some .mcmc, d)) (hs : Spells .mcmc uses ws)
    (hm : (cliMain d s).2 = .ok d') (hc : mcmcCall d' = .ok call) (setting option : String) (hx : (setting, option) ∈ mcmcSettings) (ht : setting ≠ "thin") (hu : Unnamed uses option) :
    ∃ v, (setting, v) ∈ libraryDefaults ∧ Dict.get? call setting.toList = some v := by
  obtain ⟨dest, hk, -, ho⟩ := setting_keyword _ hx
  obtain ⟨w, ha, hg⟩ := (keys_of_call hc).2 _ hk
  have hgood := spelled_good hs
  have hw := attr_eq.1 ha
  rw [main_attr hm (dest_ne hk)] at hw
  have hv := (C144_unique .mcmc ws uses d hs hp dest.toList (some w)).2 hw
  rcases hv with ⟨pre, u, post, x, e, h3, -, -, -⟩ | ⟨-, ⟨pre, o, post, e, h4, -, h5⟩ | ⟨-, h3⟩⟩
  · exfalso
    have hmem : u ∈ uses := by rw [e]; simp
    have h1 := ho _ (hgood u hmem).1
    have h2 := h1.2 (h1.1.1 h3)
    have := (hgood u hmem).2.1
    rw [h2] at this
    exact hu u hmem (List.mem_singleton.1 this)
  · refine ⟨w, ?_, hg⟩
    rw [Option.some.inj h5]
    exact default_library _ hx ht _ hk rfl o (by rw [e]; simp) h4
  · cases h3

/-- C153 fails for `thin`: without the option every tenth sample is kept, while `radvel.mcmc` keeps every sample. -/
theorem C153_thin_violated (ws : List Text) (uses : List OptUse) (d d' call : Dict Text ArgVal) (s : OS) (hp : parseArgs (SubCmd.mcmc.word :: ws) = some (some .mcmc, d)) (hs : Spells .mcmc uses ws)
    (hm : (cliMain d s).2 = .ok d') (hc : mcmcCall d' = .ok call) (hu : Unnamed uses "--thin") : Dict.get? call "thin".toList = some (.int 10) ∧ ("thin", .int 1) ∈ libraryDefaults := by
  refine ⟨?_, by decide +kernel⟩
  obtain ⟨w, ha, hg⟩ := (keys_of_call hc).2 ("thin", "thin") (by decide +kernel)
  rw [hg]
  have hw := attr_eq.1 ha
  rw [main_attr hm (by decide +kernel)] at hw
  have hgood := spelled_good hs
  have ho : ∀ o ∈ SubCmd.mcmc.opts, o.dest = "thin".toList → o.names = ["--thin".toList] ∧ o.default = .int 10 := by decide +kernel
  have hv := (C144_unique .mcmc ws uses d hs hp "thin".toList (some w)).2 hw
  rcases hv with ⟨pre, u, post, x, e, h3, -, -, -⟩ | ⟨-, ⟨pre, o, post, e, h4, -, h5⟩ | ⟨-, h3⟩⟩
  · exfalso
    have hmem : u ∈ uses := by rw [e]; simp
    have h2 := (ho _ (hgood u hmem).1 h3).1
    have := (hgood u hmem).2.1
    rw [h2] at this
    exact hu u hmem (List.mem_singleton.1 this)
  · rw [h5, (ho o (by rw [e]; simp) h4).2]
  · cases h3

theorem fileIn_join (a b : Text) : FileIn a b (osJoin a b) := by
  unfold osJoin
  rcases List.eq_nil_or_concat a with rfl | ⟨d, c, rfl⟩
  · exact .here rfl
  · rw [if_neg (by simp)]
    split
    · rename_i h
      have : c = '/' := by simpa using h
      exact .slash d (by rw [List.concat_eq_append, this])
    · rename_i h
      have := FileIn.plain (dir := d.concat c) (name := b) d c (by rw [List.concat_eq_append]) (by simpa using h)
      simpa using this

/-- **C153**: the chains are saved to and read from one file of the output directory, named after the setup file, if the user asks for either; else there is none. -/
theorem C153_file (d call : Dict Text ArgVal) (hc : mcmcCall d = .ok call) : ∃ f out save proceed, Dict.get? d "setupfn".toList = some (.str f) ∧ Dict.get? d "outputdir".toList = some (.str out) ∧
    Dict.get? d "save".toList = some save ∧ Dict.get? d "proceed".toList = some proceed ∧ Dict.get? call "savename".toList = Dict.get? call "proceedname".toList ∧
    ((save = .bool true ∨ proceed = .bool true) → ∃ path, Dict.get? call "savename".toList = some (.str path) ∧ FileIn out (confBase f ++ "_rawchain.h5".toList) path) ∧
    (¬ (save = .bool true ∨ proceed = .bool true) → Dict.get? call "savename".toList = some .none) := by
  have hnd := (keys_of_call hc).1
  unfold mcmcCall at hc
  rcases hb : backendLoc d with e | loc
  · rw [hb] at hc; cases hc
  · rcases hm : mcmcKeywords.mapM (keywordOf d) with e | l
    · simp only [hb, hm, bind, Except.bind] at hc; cases hc
    · simp only [hb, hm, bind, Except.bind, pure, Except.pure] at hc
      have h := Except.ok.inj hc
      subst h
      have g1 : Dict.get? (l ++ [("savename".toList, loc), ("proceedname".toList, loc)]) "savename".toList = some loc := Dict.get?_of_mem_nodup _ hnd (by simp)
      have g2 : Dict.get? (l ++ [("savename".toList, loc), ("proceedname".toList, loc)]) "proceedname".toList = some loc := Dict.get?_of_mem_nodup _ hnd (by simp)
      rw [g1, g2]
      unfold backendLoc at hb
      rcases h1 : attr d "setupfn" with e | f
      · rw [h1] at hb; cases hb
      rcases h2 : attr d "outputdir" with e | out
      · simp only [h1, h2, bind, Except.bind] at hb; cases hb
      simp only [h1, h2, bind, Except.bind] at hb
      cases f <;> cases out <;> try cases hb
      rename_i f out
      rcases h3 : attr d "save" with e | save
      · simp only [h3] at hb; cases hb
      rcases h4 : attr d "proceed" with e | proceed
      · simp only [h3, h4] at hb; cases hb
      simp only [h3, h4, pure, Except.pure] at hb
      refine ⟨f, out, save, proceed, attr_eq.1 h1, attr_eq.1 h2, attr_eq.1 h3, attr_eq.1 h4, rfl, ?_⟩
      rw [← Except.ok.inj hb]
      have hi : ∀ x : ArgVal, x.isTrue = true ↔ x = .bool true := by
        intro x
        cases x <;> simp [ArgVal.isTrue]
      simp only [Bool.or_eq_true, hi]
      exact ⟨fun h => ⟨_, by rw [if_pos h], fileIn_join _ _⟩, fun h => by rw [if_neg h]⟩

/-- **C153**: the defaults named in the help texts are the real ones, except two. -/
theorem C153_help_partial : ∀ x ∈ helpDefaults, x.1 ≠ "--minAfactor" → x.1 ≠ "--maxArchange" → ∀ o ∈ SubCmd.mcmc.opts, x.1.toList ∈ o.names → o.default = x.2 := by decide +kernel

/-- C153 fails for the help: `--minAfactor` and `--maxArchange` are documented with defaults 50 and 0.07; the real ones are 40 and 0.03. -/
theorem C153_help_violated : ("--minAfactor", .int 50) ∈ helpDefaults ∧ ("--maxArchange", decimal 7 (-2)) ∈ helpDefaults ∧
    (∀ o ∈ SubCmd.mcmc.opts, "--minAfactor".toList ∈ o.names → o.default = .int 40) ∧ (∀ o ∈ SubCmd.mcmc.opts, "--maxArchange".toList ∈ o.names → o.default = decimal 3 (-2)) := by decide +kernel

theorem mapM_keyword_ok {d : Dict Text ArgVal} : ∀ {l : List (String × String)}, (∀ x ∈ l, ∃ v, attr d x.2 = .ok v) → ∃ r, l.mapM (keywordOf d) = .ok r
  | [], _ => ⟨[], rfl⟩
  | x :: l, h => by
    obtain ⟨v, hv⟩ := h x List.mem_cons_self
    obtain ⟨r, hr⟩ := mapM_keyword_ok (fun y hy => h y (List.mem_cons_of_mem _ hy))
    exact ⟨(x.1.toList, v) :: r, by simp only [List.mapM_cons, keywordOf, hv, bind, Except.bind]; rw [hr]; rfl⟩

/-- **C153**: every accepted command line with a setup file leads to a call of the sampler, once there is an output directory. -/
theorem C153_called (ws : List Text) (d d' : Dict Text ArgVal) (s : OS) (hp : parseArgs (SubCmd.mcmc.word :: ws) = some (some .mcmc, d)) (hm : (cliMain d s).2 = .ok d') (f : Text)
    (hf : Dict.get? d "setupfn".toList = some (.str f)) : ∃ call, mcmcCall d' = .ok call := by
  obtain ⟨out, ho, -, -, -, -, hk⟩ := C148_directory_partial .mcmc ws d d' s (cliMain d s).1 hp (Prod.ext rfl hm)
  have hr : ∀ k ∈ SubCmd.mcmc.reads, k.toList ≠ "outputdir".toList → ∃ v, attr d' k = .ok v := by
    intro k h1 h2
    obtain ⟨v, hv⟩ := C145_defined_partial _ .mcmc d hp k h1
    exact ⟨v, attr_ok (by rw [hk _ h2]; exact attr_eq.1 hv)⟩
  have hf' : attr d' "setupfn" = .ok (.str f) := attr_ok (by rw [hk _ (by decide +kernel)]; exact hf)
  obtain ⟨save, h1⟩ := hr "save" (by decide +kernel) (by decide +kernel)
  obtain ⟨proceed, h2⟩ := hr "proceed" (by decide +kernel) (by decide +kernel)
  have hkr : ∀ x ∈ mcmcKeywords, x.2 ∈ SubCmd.mcmc.reads := by decide +kernel
  obtain ⟨l, hl⟩ := mapM_keyword_ok (d := d') (l := mcmcKeywords) (fun x hx => hr x.2 (hkr x hx) (dest_ne hx))
  refine ⟨l ++ [("savename".toList, if save.isTrue || proceed.isTrue then .str (osJoin out (confBase f ++ "_rawchain.h5".toList)) else .none),
    ("proceedname".toList, if save.isTrue || proceed.isTrue then .str (osJoin out (confBase f ++ "_rawchain.h5".toList)) else .none)], ?_⟩
  have hb : backendLoc d' = .ok (if save.isTrue || proceed.isTrue then .str (osJoin out (confBase f ++ "_rawchain.h5".toList)) else .none) := by
    simp only [backendLoc, hf', ho, h1, h2, bind, Except.bind, pure, Except.pure]
  simp only [mcmcCall, hb, hl, bind, Except.bind, pure, Except.pure]

/-- Non-vacuity: `radvel mcmc -s a.py --nwalkers 20 --nwalkers 30` in an empty directory runs with 30 walkers, ten thousand steps and no file for the chains. -/
example : ∃ (ws : List Text) (d d' call : Dict Text ArgVal) (s : OS), parseArgs (SubCmd.mcmc.word :: ws) = some (some .mcmc, d) ∧ Spells .mcmc cliWitness ws ∧ (cliMain d s).2 = .ok d' ∧ mcmcCall d' = .ok call ∧
    LastNamed cliWitness "--nwalkers" ⟨"--nwalkers".toList, oneOpt ["--nwalkers"] "nwalkers" .int (.int 50), ["30".toList]⟩ ∧ Dict.get? call "nwalkers".toList = some (.int 30) ∧ Unnamed cliWitness "--nsteps" ∧
    Unnamed cliWitness "--thin" := by
  obtain ⟨d, hd, -⟩ := C144_accepts .mcmc _ _ cliWitness_spells
  have hset : Dict.get? d "setupfn".toList = some (.str "a.py".toList) :=
    (C144_unique .mcmc _ _ d cliWitness_spells hd _ _).mp (.inl ⟨[], _, cliWitness.drop 1, _, rfl, rfl, by decide +kernel, .one .str _ _ rfl (.inl rfl) (.str _), rfl⟩)
  have hout : Dict.get? d "outputdir".toList = some .none :=
    (C144_unique .mcmc _ _ d cliWitness_spells hd _ _).mp (.inr ⟨by decide +kernel, .inl ⟨[], _, SubCmd.mcmc.opts.drop 1, rfl, rfl, by simp, rfl⟩⟩)
  have hm : (cliMain d ⟨["w"], [["w"]]⟩).2 = .ok (Dict.set d "outputdir".toList (.str ("./".toList ++ confBase "a.py".toList))) := by
    unfold cliMain
    rw [outputDir_default (attr_ok hout) (attr_ok hset)]
    have : (makeDir ("./".toList ++ confBase "a.py".toList) ⟨["w"], [["w"]]⟩) = (⟨["w"], [["w"], ["w", "a"]]⟩, .ok ()) := by decide +kernel
    simp only [this]
  obtain ⟨call, hc⟩ := C153_called _ d _ _ hd hm _ hset
  have hl : LastNamed cliWitness "--nwalkers" ⟨"--nwalkers".toList, oneOpt ["--nwalkers"] "nwalkers" .int (.int 50), ["30".toList]⟩ := ⟨cliWitness.take 2, [], rfl, rfl, by simp⟩
  refine ⟨_, d, _, call, _, hd, cliWitness_spells, hm, hc, hl, ?_, by unfold Unnamed; decide +kernel, by unfold Unnamed; decide +kernel⟩
  exact (C153_typed_partial _ _ d _ call _ hd cliWitness_spells hm hc "nwalkers" "--nwalkers" (by decide +kernel) _ hl _).1
    (.one .int _ _ rfl (.inl rfl) (.int _ 30 ((pyInt_iff _ _).mp (by decide +kernel))))

end Radvel
