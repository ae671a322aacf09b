import Verif.Props.CliTypes

/-!
# C148, C149: the output directory, and options that nothing reads
-/

namespace Radvel

/-! ### names -/

theorem splitChar_whole {sep : Char} : ∀ t : Text, sep ∉ t → splitChar sep t = [t] := by
  intro t
  induction t with
  | nil => intro _; rfl
  | cons c t ih =>
    intro h
    have hc : c ≠ sep := fun e => h (by simp [e])
    simp [splitChar, hc, ih (fun hm => h (by simp [hm]))]

theorem splitChar_cut {sep : Char} (a : Text) (ha : sep ∉ a) (t : Text) : splitChar sep (a ++ sep :: t) = a :: splitChar sep t := by
  induction a with
  | nil => simp [splitChar]
  | cons c a ih =>
    have hc : c ≠ sep := fun e => ha (by simp [e])
    simp [splitChar, hc, ih (fun hm => ha (by simp [hm]))]

theorem splitChar_nonempty {sep : Char} (t : Text) : splitChar sep t ≠ [] := by
  cases t with
  | nil => simp [splitChar]
  | cons c t =>
    unfold splitChar
    split
    · simp
    · split <;> simp

theorem splitChar_join {sep : Char} (t u : Text) : splitChar sep (t ++ sep :: u) = splitChar sep t ++ splitChar sep u := by
  induction t with
  | nil => simp [splitChar]
  | cons c t ih =>
    by_cases hc : c = sep
    · simp [splitChar, hc, ih]
    · simp only [List.cons_append, splitChar, if_neg hc, ih]
      rcases h : splitChar sep t with _ | ⟨a, l⟩
      · exact absurd h (splitChar_nonempty t)
      · rfl

/-- The name of a file in a directory is what follows the last slash. -/
theorem basename_file (f : Text) (hf : '/' ∉ f) : basename f = f ∧ ∀ dir : Text, basename (dir ++ '/' :: f) = f := by
  constructor
  · simp [basename, splitChar_whole f hf]
  · intro dir
    simp [basename, splitChar_join, splitChar_whole f hf]

/-- C148: for a setup file `name.ext` in any directory, the files of the commands and the default output directory are named `name`. -/
theorem C148_name (name ext : Text) (hn : '.' ∉ name ∧ '/' ∉ name) (he : '/' ∉ ext) :
    confBase (name ++ '.' :: ext) = name ∧ ∀ dir : Text, confBase (dir ++ '/' :: (name ++ '.' :: ext)) = name := by
  have hs : '/' ∉ name ++ '.' :: ext := by simp [hn.2, he]
  obtain ⟨h1, h2⟩ := basename_file _ hs
  refine ⟨by rw [confBase, h1, splitChar_cut name hn.1]; rfl, fun dir => ?_⟩
  rw [confBase, h2 dir, splitChar_cut name hn.1]; rfl

/-- Non-vacuity of `C148_name`: `systems/HD1.py`. -/
example : confBase "systems/HD1.py".toList = "HD1".toList := (C148_name "HD1".toList "py".toList (by decide) (by decide)).2 "systems".toList

/-- C148 violated: two setup files get the same default output directory and the same names of files if their names agree up to the first dot, or if they lie in different directories
(/repo/radvel/cli.py 235), so that one run overwrites the results of the other. -/
theorem C148_clash_violated (name a b dir : Text) (hn : '.' ∉ name ∧ '/' ∉ name) (ha : '/' ∉ a) (hb : '/' ∉ b) :
    confBase (name ++ '.' :: a) = confBase (name ++ '.' :: b) ∧ confBase (dir ++ '/' :: (name ++ '.' :: a)) = confBase (name ++ '.' :: a) :=
  ⟨((C148_name name a hn ha).1).trans ((C148_name name b hn hb).1).symm, ((C148_name name a hn ha).2 dir).trans ((C148_name name a hn ha).1).symm⟩

/-- Non-vacuity of `C148_clash_violated`: `HD1.b.py` and `HD1.c.py`. -/
example : confBase "HD1.b.py".toList = confBase "HD1.c.py".toList ∧ "HD1.b.py" ≠ "HD1.c.py" :=
  ⟨(C148_clash_violated "HD1".toList "b.py".toList "c.py".toList [] (by decide) (by decide) (by decide)).1, by decide⟩

/-- C148: a text that begins with a slash names the directory with these parts; any other text one below the working directory; a leading `./` says nothing. -/
theorem C148_path (ps : List Text) (hne : ps ≠ []) (hs : ∀ p ∈ ps, '/' ∉ p ∧ p ≠ [] ∧ p ≠ ".".toList) (cwd : Path) :
    (dirOf ('/' :: List.intercalate ['/'] ps)).resolve cwd = ps.map String.ofList ∧
      (dirOf (List.intercalate ['/'] ps)).resolve cwd = cwd ++ ps.map String.ofList ∧
      (dirOf ("./".toList ++ List.intercalate ['/'] ps)).resolve cwd = cwd ++ ps.map String.ofList := by
  have hsp : splitChar '/' (List.intercalate ['/'] ps) = ps := splitChar_intercalate '/' ps (fun x hx => (hs x hx).1) hne
  have hf : ps.filter (fun p => p ≠ [] ∧ p ≠ ".".toList) = ps := List.filter_eq_self.2 (fun x hx => by simpa using (hs x hx).2)
  have h1 : splitChar '/' ('/' :: List.intercalate ['/'] ps) = [] :: ps := by
    rw [show '/' :: List.intercalate ['/'] ps = [] ++ '/' :: List.intercalate ['/'] ps from rfl, splitChar_cut [] (by simp), hsp]
  have h2 : splitChar '/' ("./".toList ++ List.intercalate ['/'] ps) = ".".toList :: ps := by
    rw [show "./".toList ++ List.intercalate ['/'] ps = ".".toList ++ '/' :: List.intercalate ['/'] ps from rfl, splitChar_cut _ (by decide), hsp]
  have h3 : "/".toList.isPrefixOf (List.intercalate ['/'] ps) = false := by
    cases ps with
    | nil => exact absurd rfl hne
    | cons a t =>
      obtain ⟨b1, b2, -⟩ := hs a List.mem_cons_self
      cases a with
      | nil => exact absurd rfl b2
      | cons c a =>
        have : c ≠ '/' := fun e => b1 (by simp [e])
        cases t <;> simp [List.intercalate, List.isPrefixOf, Ne.symm this, List.intersperse]
  refine ⟨?_, ?_, ?_⟩
  · unfold dirOf
    rw [h1, if_pos (by simp [List.isPrefixOf])]
    simp only [Dir.resolve]
    rw [List.filter_cons_of_neg (by simp), hf]
  · unfold dirOf
    rw [hsp, h3, if_neg (by simp)]
    simp only [Dir.resolve]
    rw [hf]
  · unfold dirOf
    rw [h2, if_neg (by simp [List.isPrefixOf])]
    simp only [Dir.resolve]
    rw [List.filter_cons_of_neg (by decide), hf]

/-- Non-vacuity of `C148_path`: `/data/HD1`. -/
example : (dirOf "/data/HD1".toList).resolve ["home"] = ["data", "HD1"] :=
  (C148_path ["data".toList, "HD1".toList] (by decide) (by decide) ["home"]).1

/-! ### the directory -/

theorem makeDir_spec (t : Text) (s s' : OS) (h : makeDir t s = (s', .ok ())) :
    s'.cwd = s.cwd ∧ (dirOf t).resolve s.cwd ∈ s'.dirs ∧ (((dirOf t).resolve s.cwd ∈ s.dirs ∧ s'.dirs = s.dirs) ∨
      ((dirOf t).resolve s.cwd ∉ s.dirs ∧ ((dirOf t).resolve s.cwd).dropLast ∈ s.dirs ∧ s'.dirs = s.dirs ++ [(dirOf t).resolve s.cwd])) := by
  unfold makeDir at h
  split at h
  · rename_i hm
    cases h
    exact ⟨rfl, hm, .inl ⟨hm, rfl⟩⟩
  · rename_i hm
    unfold mkdir at h
    rw [if_neg hm] at h
    split at h
    · rename_i hp
      cases h
      exact ⟨rfl, by simp, .inr ⟨hm, hp, rfl⟩⟩
    · cases h

theorem makeDir_err (t : Text) (s s' : OS) (e : PyErr) (h : makeDir t s = (s', .error e)) :
    s' = s ∧ e = .fileNotFoundError ∧ (dirOf t).resolve s.cwd ∉ s.dirs ∧ ((dirOf t).resolve s.cwd).dropLast ∉ s.dirs := by
  unfold makeDir at h
  split at h
  · cases h
  · rename_i hm
    unfold mkdir at h
    rw [if_neg hm] at h
    split at h
    · cases h
    · rename_i hp
      cases h
      exact ⟨rfl, rfl, hm, hp⟩

theorem outputDir_given {d : Dict Text ArgVal} {t : Text} (h : attr d "outputdir" = .ok (.str t)) : outputDir d = .ok (d, t) := by
  simp only [outputDir, h, bind, Except.bind]; rfl

theorem outputDir_default {d : Dict Text ArgVal} {f : Text} (h : attr d "outputdir" = .ok .none) (hf : attr d "setupfn" = .ok (.str f)) :
    outputDir d = .ok (Dict.set d "outputdir".toList (.str ("./".toList ++ confBase f)), "./".toList ++ confBase f) := by
  simp only [outputDir, h, hf, bind, Except.bind]; rfl

theorem outputDir_none {d : Dict Text ArgVal} (h : attr d "outputdir" = .ok .none) (hf : attr d "setupfn" = .ok .none) : outputDir d = .error .typeError := by
  simp only [outputDir, h, hf, bind, Except.bind]

/-- The values that `-d` and `-s` can have. -/
theorem parent_values {c : SubCmd} {ws : List Text} {d : Dict Text ArgVal} (h : parseArgs (c.word :: ws) = some (some c, d)) {k : String} (hk : k = "outputdir" ∨ k = "setupfn") :
    attr d k = .ok .none ∨ ∃ t, attr d k = .ok (.str t) := by
  have ho : ∀ o ∈ c.opts, o.dest = k.toList → o.action = .one .str ∧ o.default = .none := by rcases hk with rfl | rfl <;> cases c <;> decide +kernel
  obtain ⟨o, h1, h2, v, h3, h4⟩ := attr_value h k.toList (by rcases hk with rfl | rfl <;> cases c <;> decide +kernel)
  obtain ⟨ha, hd⟩ := ho o h1 h2
  rcases h4 with rfl | ⟨vals, hg⟩
  · rw [hd] at h3
    exact .inl (attr_ok h3)
  · cases hg with
    | flag b hb => rw [ha] at hb; cases hb
    | one c' t _ hb _ hw =>
      rw [ha] at hb
      cases hb
      cases hw
      exact .inr ⟨t, attr_ok h3⟩
    | many _ hb => rw [ha] at hb; cases hb

/-- C148: when a command is called, its output directory exists; it is the one of the last `-d`, else `./name` for the setup file; at most that one directory was made, the working directory is
the same, and all other attributes are as parsed. -/
theorem C148_directory_partial (c : SubCmd) (ws : List Text) (d d' : Dict Text ArgVal) (s s' : OS) (h : parseArgs (c.word :: ws) = some (some c, d)) (hm : cliMain d s = (s', .ok d')) :
    ∃ t, attr d' "outputdir" = .ok (.str t) ∧ (attr d "outputdir" = .ok (.str t) ∨ (attr d "outputdir" = .ok .none ∧ ∃ f, attr d "setupfn" = .ok (.str f) ∧ t = "./".toList ++ confBase f)) ∧
      (dirOf t).resolve s.cwd ∈ s'.dirs ∧ s'.cwd = s.cwd ∧ (s'.dirs = s.dirs ∨ ((dirOf t).resolve s.cwd ∉ s.dirs ∧ s'.dirs = s.dirs ++ [(dirOf t).resolve s.cwd])) ∧
      ∀ k, k ≠ "outputdir".toList → Dict.get? d' k = Dict.get? d k := by
  unfold cliMain at hm
  rcases parent_values h (.inl rfl) with h1 | ⟨t, h1⟩
  · rcases parent_values h (.inr rfl) with h2 | ⟨f, h2⟩
    · rw [outputDir_none h1 h2] at hm; cases hm
    · rw [outputDir_default h1 h2] at hm
      simp only at hm
      rcases hd : makeDir ("./".toList ++ confBase f) s with ⟨s1, e | ⟨⟩⟩
      · rw [hd] at hm; cases hm
      · rw [hd] at hm
        cases hm
        obtain ⟨a1, a2, a3⟩ := makeDir_spec _ s s' hd
        refine ⟨_, attr_ok (Dict.get?_set_self d _ _), .inr ⟨h1, f, h2, rfl⟩, a2, a1, ?_, fun k hk => Dict.get?_set_ne d _ (Ne.symm hk)⟩
        rcases a3 with ⟨-, a3⟩ | ⟨a3, -, a4⟩
        · exact .inl a3
        · exact .inr ⟨a3, a4⟩
  · rw [outputDir_given h1] at hm
    simp only at hm
    rcases hd : makeDir t s with ⟨s1, e | ⟨⟩⟩
    · rw [hd] at hm; cases hm
    · rw [hd] at hm
      cases hm
      obtain ⟨a1, a2, a3⟩ := makeDir_spec _ s s' hd
      refine ⟨t, h1, .inl h1, a2, a1, ?_, fun k hk => rfl⟩
      rcases a3 with ⟨-, a3⟩ | ⟨a3, -, a4⟩
      · exact .inl a3
      · exact .inr ⟨a3, a4⟩

/-- C148: the command is called unless no directory can be named (neither `-d` nor `-s`) or the directory above is missing; then nothing has changed. -/
theorem C148_fails (c : SubCmd) (ws : List Text) (d : Dict Text ArgVal) (s s' : OS) (e : PyErr) (h : parseArgs (c.word :: ws) = some (some c, d)) (hm : cliMain d s = (s', .error e)) :
    s' = s ∧ ((e = .typeError ∧ attr d "outputdir" = .ok .none ∧ attr d "setupfn" = .ok .none) ∨
      (e = .fileNotFoundError ∧ ∃ t, (dirOf t).resolve s.cwd ∉ s.dirs ∧ ((dirOf t).resolve s.cwd).dropLast ∉ s.dirs ∧
        (attr d "outputdir" = .ok (.str t) ∨ ∃ f, attr d "setupfn" = .ok (.str f) ∧ t = "./".toList ++ confBase f))) := by
  unfold cliMain at hm
  rcases parent_values h (.inl rfl) with h1 | ⟨t, h1⟩
  · rcases parent_values h (.inr rfl) with h2 | ⟨f, h2⟩
    · rw [outputDir_none h1 h2] at hm; cases hm
      exact ⟨rfl, .inl ⟨rfl, h1, h2⟩⟩
    · rw [outputDir_default h1 h2] at hm
      simp only at hm
      rcases hd : makeDir ("./".toList ++ confBase f) s with ⟨s1, e' | ⟨⟩⟩
      · rw [hd] at hm
        cases hm
        obtain ⟨a1, a2, a3, a4⟩ := makeDir_err _ s s' _ hd
        exact ⟨a1, .inr ⟨a2, _, a3, a4, .inr ⟨f, h2, rfl⟩⟩⟩
      · rw [hd] at hm; cases hm
  · rw [outputDir_given h1] at hm
    simp only at hm
    rcases hd : makeDir t s with ⟨s1, e' | ⟨⟩⟩
    · rw [hd] at hm
      cases hm
      obtain ⟨a1, a2, a3, a4⟩ := makeDir_err _ s s' _ hd
      exact ⟨a1, .inr ⟨a2, _, a3, a4, .inl h1⟩⟩
    · rw [hd] at hm; cases hm

/-- C148 violated: without `-s` and `-d` the command ends in a TypeError from `os.path.basename(None)` instead of a message of the parser (/repo/radvel/cli.py 31-34, 235). -/
theorem C148_setup_violated (c : SubCmd) (ws : List Text) (uses : List OptUse) (d : Dict Text ArgVal) (s : OS) (hs : Spells c uses ws) (h : parseArgs (c.word :: ws) = some (some c, d))
    (h1 : Unused uses "setupfn") (h2 : Unused uses "outputdir") : cliMain d s = (s, .error .typeError) := by
  have a1 : attr d "setupfn" = .ok .none := unused_value hs h h1 (by cases c <;> decide +kernel)
  have a2 : attr d "outputdir" = .ok .none := unused_value hs h h2 (by cases c <;> decide +kernel)
  unfold cliMain
  rw [outputDir_none a2 a1]

/-- Non-vacuity of `C148_directory_partial`: `radvel mcmc -s a.py` in `/home`. -/
example : ∃ d d' s', parseArgs ("mcmc".toList :: ["-s".toList, "a.py".toList]) = some (some .mcmc, d) ∧
    cliMain d { cwd := ["home"], dirs := [[], ["home"]] } = (s', .ok d') ∧ s'.dirs = [[], ["home"], ["home", "a"]] := by
  have hs : Spells .mcmc (cliWitness.take 1) ["-s".toList, "a.py".toList] := spells_plain (fun u hu => spelled_good cliWitness_spells u (List.mem_of_mem_take hu)) (by decide +kernel)
  obtain ⟨d, h, -⟩ := C144_accepts .mcmc _ _ hs
  have h1 : attr d "outputdir" = .ok .none := unused_value hs h (by unfold Unused; decide +kernel) (by decide +kernel)
  obtain ⟨-, -, x, hg, h2⟩ := used_value hs h (dest := "setupfn") ⟨[], [], rfl, rfl, by simp⟩
  cases hg with
  | one c t _ ha _ hw =>
    cases ha
    cases hw
    refine ⟨d, Dict.set d "outputdir".toList (.str ("./".toList ++ confBase "a.py".toList)), { cwd := ["home"], dirs := [[], ["home"], ["home", "a"]] }, h, ?_, rfl⟩
    unfold cliMain
    rw [outputDir_default h1 h2]
    simp only
    have : makeDir ("./".toList ++ confBase "a.py".toList) { cwd := ["home"], dirs := [[], ["home"]] } = (({ cwd := ["home"], dirs := [[], ["home"], ["home", "a"]] } : OS), .ok ()) := by decide +kernel
    rw [this]
  | many _ ha => cases ha

/-- Non-vacuity of `C148_setup_violated`. -/
example (s : OS) : ∃ d, parseArgs ["fit".toList] = some (some .fit, d) ∧ cliMain d s = (s, .error .typeError) := by
  have hs : Spells .fit [] [] := .nil
  obtain ⟨d, h, -⟩ := C144_accepts .fit _ _ hs
  exact ⟨d, h, C148_setup_violated .fit _ _ d s hs h (by simp [Unused]) (by simp [Unused])⟩

/-! ### options that nothing reads -/

/-- C149: each option of `fit`, `plot`, `mcmc` and `ns` is read by its command. -/
theorem C149_read_partial (c : SubCmd) (hc : c = .fit ∨ c = .plot ∨ c = .mcmc ∨ c = .ns) : ∀ o ∈ c.opts, ∃ k ∈ c.reads, o.dest = k.toList := by
  rcases hc with rfl | rfl | rfl | rfl <;> decide +kernel

/-- C149 violated: `--header` of `radvel table` has no effect on anything the command reads, nor has `--decorr` of `table`, `derive` and `report`: a command line with them anywhere gives the
same attributes (/repo/radvel/cli.py 35-40, 205-207; /repo/radvel/driver.py 462-537, 566-757). -/
theorem C149_unread_violated (c : SubCmd) (n : String) (hn : (c = .table ∧ n = "--header") ∨ ((c = .table ∨ c = .derive ∨ c = .report) ∧ n = "--decorr")) (uses : List OptUse) (ws : List Text)
    (hs : Spells c uses ws) (d : Dict Text ArgVal) (h : parseArgs (c.word :: ws) = some (some c, d)) :
    ∃ d', parseArgs (c.word :: n.toList :: ws) = some (some c, d') ∧ ∀ k ∈ c.reads, attr d' k = attr d k := by
  obtain ⟨o, ho, hnm, ha, hr⟩ : ∃ o ∈ c.opts, n.toList ∈ o.names ∧ o.action = .flag true ∧ ∀ k ∈ c.reads, o.dest ≠ k.toList := by
    rcases hn with ⟨rfl, rfl⟩ | ⟨rfl | rfl | rfl, rfl⟩
    · exact ⟨flagOpt ["--header"] "header" true, by decide +kernel, by decide +kernel, rfl, by decide +kernel⟩
    · exact ⟨flagOpt ["--decorr"] "decorr" true, by decide +kernel, by decide +kernel, rfl, by decide +kernel⟩
    · exact ⟨flagOpt ["--decorr"] "decorr" true, by decide +kernel, by decide +kernel, rfl, by decide +kernel⟩
    · exact ⟨flagOpt ["--decorr"] "decorr" true, by decide +kernel, by decide +kernel, rfl, by decide +kernel⟩
  have hs' : Spells c (⟨n.toList, o, []⟩ :: uses) (n.toList :: ws) := by
    exact .apart n.toList [] n.toList o [] _ uses ws (.named _ _ _ ho hnm (.inl rfl)) (.flag true ha) (by simp) hs
  obtain ⟨d', h1, h2⟩ := C144_accepts c _ _ hs'
  refine ⟨d', h1, fun k hk => ?_⟩
  have : Dict.get? d' k.toList = Dict.get? d k.toList := by
    refine (((C144_unique c ws uses d hs h k.toList (Dict.get? d' k.toList)).mp ?_)).symm
    rcases h2 k.toList with ⟨pre, u, post, x, e, a1, a2, a3, a4⟩ | ⟨a1, a2⟩
    · cases pre with
      | nil =>
        simp only [List.nil_append, List.cons.injEq] at e
        obtain ⟨rfl, rfl⟩ := e
        exact absurd a1 (hr k hk)
      | cons p pre =>
        simp only [List.cons_append, List.cons.injEq] at e
        exact .inl ⟨pre, u, post, x, e.2, a1, a2, a3, a4⟩
    · exact .inr ⟨fun u hu => a1 u (by simp [hu]), a2⟩
  unfold attr
  rw [this]

/-- Non-vacuity of `C149_unread_violated`: `radvel table --header -t rv ic_compare`. -/
example : ∃ d d', parseArgs ["table".toList, "-t".toList, "rv".toList, "ic_compare".toList] = some (some .table, d) ∧
    parseArgs ["table".toList, "--header".toList, "-t".toList, "rv".toList, "ic_compare".toList] = some (some .table, d') ∧ ∀ k ∈ SubCmd.reads .table, attr d' k = attr d k := by
  have hs : Spells .table (typesWitness .table) ["-t".toList, "rv".toList, "ic_compare".toList] := spells_plain (typesWitness_good .table (.inr rfl)) (by decide +kernel)
  obtain ⟨d, h, -⟩ := C144_accepts .table _ _ hs
  obtain ⟨d', h1, h2⟩ := C149_unread_violated .table "--header" (.inl ⟨rfl, rfl⟩) _ _ hs d h
  exact ⟨d, d', h, h1, h2⟩

end Radvel
