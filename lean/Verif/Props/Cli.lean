import Verif.Lemmas.Cli

/-!
# C144-C147: what a command line means and what the commands get from it
-/

namespace Radvel

theorem parseArgs_word (c : SubCmd) (ws : List Text) : parseArgs (c.word :: ws) = (parseWords c.opts ws (startNames c.opts)).map (fun d => (some c, d)) := by
  rw [parseArgs, findSub_word]

/-- C144: an accepted command line names a subcommand first, or is empty. -/
theorem C144_subcommand (argv : List Text) (r : Option SubCmd) (d : Dict Text ArgVal) (h : parseArgs argv = some (r, d)) :
    (argv = [] ∧ r = none) ∨ ∃ c ws, argv = c.word :: ws ∧ r = some c := by
  cases argv with
  | nil => cases h; exact .inl ⟨rfl, rfl⟩
  | cons w ws =>
    rw [parseArgs] at h
    rcases hf : findSub w with _ | c
    · rw [hf] at h; cases h
    · rw [hf] at h
      simp only [Option.map_eq_some_iff] at h
      obtain ⟨d', -, e⟩ := h
      cases e
      exact .inr ⟨c, ws, by rw [findSub_some hf], rfl⟩

/-- C144: an accepted command line is a list of uses of the options of its subcommand; each attribute has the value of the last option used for it, else its default. -/
theorem C144_meaning (c : SubCmd) (ws : List Text) (d : Dict Text ArgVal) (h : parseArgs (c.word :: ws) = some (some c, d)) :
    ∃ uses, Spells c uses ws ∧ ∀ dest, ValueAfter c.opts uses dest (Dict.get? d dest) := by
  rw [parseArgs_word] at h
  simp only [Option.map_eq_some_iff] at h
  obtain ⟨d', hp, e⟩ := h
  cases e
  obtain ⟨uses, h1, h3⟩ := parseWords_sound (goodTable c) ws.length ws _ _ le_rfl hp
  refine ⟨uses, h1, fun dest => ?_⟩
  rcases applied_get h3 dest with h4 | ⟨h4, h5⟩
  · exact .inl h4
  · refine .inr ⟨h4, ?_⟩
    rw [h5]
    exact start_value c.opts dest

/-- C144: every list of uses of options of a subcommand is accepted, in any order and number. -/
theorem C144_accepts (c : SubCmd) (ws : List Text) (uses : List OptUse) (h : Spells c uses ws) :
    ∃ d, parseArgs (c.word :: ws) = some (some c, d) ∧ ∀ dest, ValueAfter c.opts uses dest (Dict.get? d dest) := by
  obtain ⟨d, h3, h4⟩ := parseWords_complete (goodTable c) h (startNames c.opts)
  refine ⟨d, by rw [parseArgs_word, h3]; rfl, fun dest => ?_⟩
  rcases applied_get h4 dest with h5 | ⟨h5, h6⟩
  · exact .inl h5
  · refine .inr ⟨h5, ?_⟩
    rw [h6]
    exact start_value c.opts dest

/-- C144: a command line has one meaning: however it is divided into uses, the attributes are the same. -/
theorem C144_unique (c : SubCmd) (ws : List Text) (uses : List OptUse) (d : Dict Text ArgVal) (hs : Spells c uses ws) (h : parseArgs (c.word :: ws) = some (some c, d)) (dest : Text) (r : Option ArgVal) :
    ValueAfter c.opts uses dest r ↔ Dict.get? d dest = r := by
  obtain ⟨d', h1, h2⟩ := C144_accepts c ws uses hs
  rw [h] at h1
  cases h1
  exact ⟨fun hv => (h2 dest).unique hv, fun e => e ▸ h2 dest⟩

/-- `radvel mcmc -s a.py --nwalkers 20 --nwalkers 30` -/
def cliWitness : List OptUse :=
  [⟨"-s".toList, oneOpt ["-s", "--setup"] "setupfn" .str .none, ["a.py".toList]⟩, ⟨"--nwalkers".toList, oneOpt ["--nwalkers"] "nwalkers" .int (.int 50), ["20".toList]⟩,
   ⟨"--nwalkers".toList, oneOpt ["--nwalkers"] "nwalkers" .int (.int 50), ["30".toList]⟩]

theorem cliWitness_spells : Spells .mcmc cliWitness ["-s".toList, "a.py".toList, "--nwalkers".toList, "20".toList, "--nwalkers".toList, "30".toList] := by
  refine spelled_plain (uses := cliWitness) ?_
  intro u hu
  refine ⟨?_, fun v hv => plain_of (by revert u v; decide +kernel)⟩
  simp only [cliWitness, List.mem_cons, List.not_mem_nil, or_false] at hu
  rcases hu with rfl | rfl | rfl
  · exact ⟨by decide +kernel, by decide +kernel, _, .one .str _ _ rfl (.inl rfl) (.str _)⟩
  · exact ⟨by decide +kernel, by decide +kernel, _, .one .int _ _ rfl (.inl rfl) (.int _ 20 ((pyInt_iff _ _).mp (by decide +kernel)))⟩
  · exact ⟨by decide +kernel, by decide +kernel, _, .one .int _ _ rfl (.inl rfl) (.int _ 30 ((pyInt_iff _ _).mp (by decide +kernel)))⟩

/-- Non-vacuity: the last of the two counts holds, the others have their defaults. -/
example : ∃ d, parseArgs ("mcmc".toList :: ["-s".toList, "a.py".toList, "--nwalkers".toList, "20".toList, "--nwalkers".toList, "30".toList]) = some (some .mcmc, d) ∧
    Dict.get? d "nwalkers".toList = some (.int 30) ∧ Dict.get? d "thin".toList = some (.int 10) := by
  obtain ⟨d, h, -⟩ := C144_accepts .mcmc _ _ cliWitness_spells
  refine ⟨d, h, ?_, ?_⟩
  · refine (C144_unique .mcmc _ _ d cliWitness_spells h _ _).mp (.inl ⟨cliWitness.take 2, _, [], _, rfl, rfl, by simp, ?_, rfl⟩)
    exact .one .int _ _ rfl (.inl rfl) (.int _ 30 ((pyInt_iff _ _).mp (by decide +kernel)))
  · refine (C144_unique .mcmc _ _ d cliWitness_spells h _ _).mp (.inr ⟨by decide +kernel, .inl ⟨parentOpts ++ (ownOpts .mcmc).take 11, oneOpt ["--thin"] "thin" .int (.int 10),
      (ownOpts .mcmc).drop 12, by decide +kernel, by decide +kernel, by decide +kernel, rfl⟩⟩)

/-! ### attributes -/

theorem attr_ok {d : Dict Text ArgVal} {k : String} {v : ArgVal} (h : Dict.get? d k.toList = some v) : attr d k = .ok v := by
  unfold attr; rw [h]

theorem attr_eq {d : Dict Text ArgVal} {k : String} {v : ArgVal} : attr d k = .ok v ↔ Dict.get? d k.toList = some v := by
  unfold attr
  rcases Dict.get? d k.toList with _ | w <;> simp

/-- An attribute for which there is an option has a value: one that a use gives, or the default of an option for it. -/
theorem attr_value {c : SubCmd} {ws : List Text} {d : Dict Text ArgVal} (h : parseArgs (c.word :: ws) = some (some c, d)) (dest : Text) (ho : ∃ o ∈ c.opts, o.dest = dest) :
    ∃ o ∈ c.opts, o.dest = dest ∧ ∃ v, Dict.get? d dest = some v ∧ (v = o.default ∨ ∃ vals, Gives o vals v) := by
  obtain ⟨uses, h0, h2⟩ := C144_meaning c ws d h
  have h1 := spelled_good h0
  rcases h2 dest with ⟨pre, u, post, x, e, h3, -, h5, h6⟩ | ⟨-, h3⟩
  · exact ⟨u.opt, (h1 u (by rw [e]; simp)).1, h3, x, h6, .inr ⟨_, h5⟩⟩
  · rcases h3 with ⟨pre, o, post, e, h4, -, h5⟩ | ⟨h3, -⟩
    · exact ⟨o, by rw [e]; simp, h4, o.default, h5, .inl rfl⟩
    · obtain ⟨o, ho, hd⟩ := ho
      exact absurd hd (h3 o ho)

theorem reads_offered (c : SubCmd) : ∀ k ∈ c.reads, ∃ o ∈ c.opts, o.dest = k.toList := by cases c <;> decide +kernel

/-- C145: whatever the command line, every attribute that a command reads is there. -/
theorem C145_defined_partial (argv : List Text) (c : SubCmd) (d : Dict Text ArgVal) (h : parseArgs argv = some (some c, d)) : ∀ k ∈ c.reads, ∃ v, attr d k = .ok v := by
  intro k hk
  rcases C144_subcommand argv _ d h with ⟨-, h1⟩ | ⟨c', ws, rfl, h1⟩
  · cases h1
  · cases h1
    obtain ⟨o, -, -, v, hv, -⟩ := attr_value h k.toList (reads_offered c k hk)
    exact ⟨v, attr_ok hv⟩

/-- C145 violated: `radvel` without a subcommand is accepted by the parser and then ends in an AttributeError, because only the subcommands define `outputdir` (/repo/radvel/cli.py 232). -/
theorem C145_alone_violated (s : OS) : parseArgs [] = some (none, []) ∧ cliMain [] s = (s, .error .attributeError) := ⟨rfl, rfl⟩

/-- Non-vacuity of `C145_defined_partial`. -/
example : ∃ d, parseArgs ("mcmc".toList :: ["-s".toList, "a.py".toList, "--nwalkers".toList, "20".toList, "--nwalkers".toList, "30".toList]) = some (some .mcmc, d) ∧
    ∃ v, attr d "burnGR" = .ok v := by
  obtain ⟨d, h, -⟩ := C144_accepts .mcmc _ _ cliWitness_spells
  exact ⟨d, h, C145_defined_partial _ _ d h "burnGR" (by decide)⟩

end Radvel
