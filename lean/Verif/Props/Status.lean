import Verif.Lemmas.StatusStep

/-!
# C79, C80: the status file
-/

namespace Radvel

/-- C79 for names and values that fit on one line (missing: the others, see below): after any sequence of saves, starting from any readable status file or from none, the file can be read; every option has the
value saved last, or else its old one; and the sections are exactly the old ones and the ones saved to. -/
theorem C79_plain_partial (file : Option Text) (c0 : Config) (h0 : loadStatus file = .ok c0) (hc : PlainConfig c0) (saves : List Save) (h : ∀ x ∈ saves, x.Plain) :
    ∃ file' c, saveSeq file saves = .ok file' ∧ loadStatus file' = .ok c ∧ (∀ s k, c.value s k = (lastSaved saves s k).or (c0.value s k)) ∧
      ∀ s, s ∈ c.keys ↔ s ∈ c0.keys ∨ ∃ x ∈ saves, x.section_ = s := by
  induction saves generalizing file c0 with
  | nil => exact ⟨file, c0, rfl, h0, by simp [lastSaved], by simp⟩
  | cons x t ih =>
    have hx := h x (by simp)
    obtain ⟨p1, p2, p3⟩ := stepConfig_spec hc hx
    have hsave : saveStatus file x.section_ x.vars = .ok (writeConfig (stepConfig c0 x)) := by
      unfold saveStatus newStatus
      rw [h0]
      rfl
    obtain ⟨file', c, e1, e2, e3, e4⟩ := ih (some (writeConfig (stepConfig c0 x))) (stepConfig c0 x) (read_write _ p1) p1 fun y hy => h y (by simp [hy])
    refine ⟨file', c, ?_, e2, ?_, ?_⟩
    · unfold saveSeq
      rw [hsave]
      exact e1
    · intro s k
      rw [e3, p2, lastSaved_cons, Option.or_assoc]
      congr 1
      split_ifs <;> simp
    · intro s
      rw [e4, p3]
      constructor
      · rintro ((rfl | h) | ⟨y, hy, rfl⟩)
        · exact .inr ⟨x, by simp, rfl⟩
        · exact .inl h
        · exact .inr ⟨y, by simp [hy], rfl⟩
      · rintro (h | ⟨y, hy, rfl⟩)
        · exact .inl (.inr h)
        · rcases List.mem_cons.1 hy with rfl | hy
          · exact .inl (.inl rfl)
          · exact .inr ⟨y, hy, rfl⟩

/-- Non-vacuity of C79: what `radvel fit` and then `radvel mcmc` save. -/
def fitSave : Save := ⟨"fit".toList, [("run".toList, "True".toList), ("postfile".toList, "k2-24/k2-24_post_obj.pkl".toList)]⟩

/-- Part of what `radvel mcmc` saves. -/
def mcmcSave : Save := ⟨"mcmc".toList, [("run".toList, "True".toList), ("minTz".toList, "1254.3".toList), ("maxGR".toList, "1.003".toList)]⟩

theorem fitSave_plain : fitSave.Plain := by
  refine ⟨⟨by decide, by decide, by decide, by decide⟩, ?_⟩
  intro o ho
  simp only [fitSave, List.mem_cons, List.not_mem_nil, or_false] at ho
  rcases ho with rfl | rfl <;> exact ⟨⟨by decide, ⟨by decide, by decide⟩, by decide, by decide, by decide⟩, ⟨by decide, by decide⟩⟩

theorem mcmcSave_plain : mcmcSave.Plain := by
  refine ⟨⟨by decide, by decide, by decide, by decide⟩, ?_⟩
  intro o ho
  simp only [mcmcSave, List.mem_cons, List.not_mem_nil, or_false] at ho
  rcases ho with rfl | rfl | rfl <;> exact ⟨⟨by decide, ⟨by decide, by decide⟩, by decide, by decide, by decide⟩, ⟨by decide, by decide⟩⟩

example : (∀ x ∈ [fitSave, mcmcSave], x.Plain) ∧ loadStatus none = .ok [] ∧ PlainConfig [] ∧ lastSaved [fitSave, mcmcSave] "mcmc".toList "mintz".toList = some "1254.3".toList := by
  refine ⟨?_, rfl, ⟨by simp [Dict.keys], by simp, by simp, by simp⟩, by decide⟩
  intro x hx
  simp only [List.mem_cons, List.not_mem_nil, or_false] at hx
  rcases hx with rfl | rfl
  · exact fitSave_plain
  · exact mcmcSave_plain

/-- C79 is false for values with spaces at the ends: a path in a directory whose name starts with a space is read back without it. -/
theorem C79_space_violated : ∃ text c, saveStatus none "fit".toList [("postfile".toList, " out/a_post_obj.pkl".toList)] = .ok text ∧ loadStatus (some text) = .ok c ∧
    c.value "fit".toList "postfile".toList = some "out/a_post_obj.pkl".toList ∧ lastSaved [⟨"fit".toList, [("postfile".toList, " out/a_post_obj.pkl".toList)]⟩] "fit".toList "postfile".toList = some " out/a_post_obj.pkl".toList := by
  exact ⟨_, _, rfl, rfl, by decide, by decide⟩

/-- C79 is false for option names (these come from the command line in `radvel ns`) that have a colon: the option is lost and another one appears. -/
theorem C79_colon_violated : ∃ text c, saveStatus none "ns".toList [("a:b".toList, "1".toList)] = .ok text ∧ loadStatus (some text) = .ok c ∧ c.value "ns".toList "a:b".toList = none ∧
    c.value "ns".toList "a".toList = some "b = 1".toList := by
  exact ⟨_, _, rfl, rfl, by decide, by decide⟩

/-- C79 is false for option names that differ only in case: both are the same option. Here a keyword `RUN` of the sampler makes the status say that sampling was not run. -/
theorem C79_case_violated : ∃ text c, saveStatus none "ns".toList [("run".toList, "True".toList), ("RUN".toList, "False".toList)] = .ok text ∧ loadStatus (some text) = .ok c ∧
    c.value "ns".toList "run".toList = some "False".toList := by
  exact ⟨_, _, rfl, rfl, by decide⟩

/-- C79 is false for names that look like comments: one cannot be read back at all. -/
theorem C79_comment_violated : ∃ text c, saveStatus none "ns".toList [("#a".toList, "1".toList)] = .ok text ∧ loadStatus (some text) = .ok c ∧ c = [("ns".toList, [])] := by
  exact ⟨_, _, rfl, rfl, by decide⟩

/-- C80, what can be said: at every crash point the file holds the old content or a first part of the new one. Missing: the whole new content, see `C80_violated`. -/
theorem C80_prefix_partial (file : Option Text) (sec : Text) (vars : List (Text × Text)) (n : Option Nat) :
    crashedStatus file sec vars n = file ∨ ∃ new t, saveStatus file sec vars = .ok new ∧ crashedStatus file sec vars n = some t ∧ t <+: new := by
  rcases n with _ | n
  · exact .inl rfl
  · unfold crashedStatus
    rcases h : saveStatus file sec vars with e | new
    · exact .inl rfl
    · exact .inr ⟨new, new.take n, rfl, rfl, List.take_prefix _ _⟩

/-- C80 is false for every status file and every save: a crash right after the file was opened loses everything, old and new: every section of the status is gone, so that for instance the fit has to be run
again. -/
theorem C80_violated (file : Option Text) (c0 : Config) (h0 : loadStatus file = .ok c0) (hne : c0 ≠ []) (sec : Text) (vars : List (Text × Text)) :
    ∃ new t, saveStatus file sec vars = .ok new ∧ crashedStatus file sec vars (some 0) = some t ∧ loadStatus (some t) = .ok [] ∧ some t ≠ file ∧ t ≠ new := by
  have hsave : saveStatus file sec vars = .ok (writeConfig (stepConfig c0 ⟨sec, vars⟩)) := by
    unfold saveStatus newStatus
    rw [h0]
    rfl
  refine ⟨_, [], hsave, ?_, rfl, ?_, ?_⟩
  · unfold crashedStatus
    rw [hsave]
    rfl
  · rintro rfl
    rw [show loadStatus (some []) = .ok [] from rfl] at h0
    cases h0
    exact hne rfl
  · intro h
    have hkeys : ∀ (c : Config), c ≠ [] → writeConfig c ≠ [] := by
      intro c hc h
      obtain ⟨a, t, rfl⟩ := List.exists_cons_of_ne_nil hc
      unfold writeConfig writeSection at h
      simp at h
    refine hkeys _ ?_ h.symm
    intro hs
    have hpos : ∀ (vars : List (Text × Text)) (c : Config), 0 < c.length → 0 < (vars.foldl (fun c o => setOption c sec o) c).length := by
      intro vars
      induction vars with
      | nil => intro c h; exact h
      | cons o vars ih =>
        intro c h
        apply ih
        unfold setOption
        obtain ⟨a, t, rfl⟩ := List.exists_cons_of_ne_nil (List.ne_nil_of_length_pos h)
        simp only [Dict.set]
        split_ifs <;> simp
    have h1 : 0 < (if c0.has sec then c0 else c0.set sec []).length := by
      obtain ⟨a, t, rfl⟩ := List.exists_cons_of_ne_nil hne
      split_ifs
      · simp
      · simp only [Dict.set]
        split_ifs <;> simp
    have := hpos vars _ h1
    unfold stepConfig at hs
    simp only at hs
    rw [hs] at this
    simp at this

/-- Non-vacuity of C80: the fit has been run and `radvel mcmc` saves its status. -/
example : ∃ text c, saveSeq none [fitSave] = .ok (some text) ∧ loadStatus (some text) = .ok c ∧ c ≠ [] := ⟨_, _, rfl, rfl, by decide⟩

end Radvel
