import Verif.Model.WorkDir

/-!
# Property theorem C59
-/

namespace Radvel

/-- C59, blocks: whatever the body does, and whether it returns or raises, a `with working_directory(dir)` block ends in the directory it started in, with the body's outcome,
provided that directory still exists; if `dir` does not exist the body is not run and nothing changes. -/
theorem C59_restored {α : Type} (dir : Dir) (body : Prog α) (s : OS) (hcwd : s.cwd ∈ s.dirs) :
    (dir.resolve s.cwd ∈ s.dirs → s.cwd ∈ (body { s with cwd := dir.resolve s.cwd }).1.dirs →
      withDir dir body s = ({ (body { s with cwd := dir.resolve s.cwd }).1 with cwd := s.cwd }, (body { s with cwd := dir.resolve s.cwd }).2)) ∧
    (dir.resolve s.cwd ∉ s.dirs → withDir dir body s = (s, .error .fileNotFoundError)) := by
  constructor
  · intro h1 h2
    simp only [withDir, getcwd, if_pos hcwd, chdir, if_pos h1, if_pos h2]
  · intro h1
    simp only [withDir, getcwd, if_pos hcwd, chdir, if_neg h1]

/-- The hypotheses of `C59_restored` hold for a body that goes elsewhere and raises. -/
example : ∃ (s : OS) (dir : Dir) (body : Prog Unit), s.cwd ∈ s.dirs ∧ dir.resolve s.cwd ∈ s.dirs ∧ s.cwd ∈ (body { s with cwd := dir.resolve s.cwd }).1.dirs ∧
    (body { s with cwd := dir.resolve s.cwd }).1.cwd = ["tmp"] ∧ (body { s with cwd := dir.resolve s.cwd }).2 = .error .valueError :=
  ⟨⟨["home"], [["home"], ["home", "out"], ["tmp"]]⟩, .rel ["out"], fun s => ({ s with cwd := ["tmp"] }, .error .valueError), by decide, by decide, by decide, rfl, rfl⟩

/-- Blocks nested in one another. -/
def nested {α : Type} (dirs : List Dir) (body : Prog α) : Prog α := dirs.foldr withDir body

/-- A program that removes no directory. -/
def Keeps {α : Type} (body : Prog α) : Prop := ∀ s, ∀ d ∈ s.dirs, d ∈ (body s).1.dirs

theorem withDir_spec {α : Type} (dir : Dir) (body : Prog α) (h : Keeps body) (s : OS) (hcwd : s.cwd ∈ s.dirs) :
    (withDir dir body s).1.cwd = s.cwd ∧ ∀ d ∈ s.dirs, d ∈ (withDir dir body s).1.dirs := by
  by_cases h1 : dir.resolve s.cwd ∈ s.dirs
  · have h2 : s.cwd ∈ (body { s with cwd := dir.resolve s.cwd }).1.dirs := h { s with cwd := dir.resolve s.cwd } _ hcwd
    rw [(C59_restored dir body s hcwd).1 h1 h2]
    exact ⟨rfl, fun d hd => h { s with cwd := dir.resolve s.cwd } d hd⟩
  · rw [(C59_restored dir body s hcwd).2 h1]
    exact ⟨rfl, fun d hd => hd⟩

theorem withDir_keeps {α : Type} (dir : Dir) (body : Prog α) (h : Keeps body) : Keeps (withDir dir body) := by
  intro s d hd
  by_cases hcwd : s.cwd ∈ s.dirs
  · exact (withDir_spec dir body h s hcwd).2 d hd
  · simp only [withDir, getcwd, if_neg hcwd]; exact hd

/-- C59, nesting: blocks nested to any depth around a body that removes no directories end where the outermost one started. -/
theorem C59_nested {α : Type} (dirs : List Dir) (hne : dirs ≠ []) (body : Prog α) (h : Keeps body) (s : OS) (hcwd : s.cwd ∈ s.dirs) : (nested dirs body s).1.cwd = s.cwd := by
  have hk : ∀ ds : List Dir, Keeps (nested ds body) := by
    intro ds
    induction ds with
    | nil => exact h
    | cons d ds ih => exact withDir_keeps d _ ih
  cases dirs with
  | nil => exact absurd rfl hne
  | cons d ds => exact (withDir_spec d _ (hk ds) s hcwd).1

/-- Non-vacuity of `C59_nested`: a body that changes directory and raises. -/
example : Keeps (fun s => ({ s with cwd := ["tmp"] }, .error .valueError) : Prog Unit) := fun _ _ h => h

/-- C59 for reports (missing: the failing runs, `C59_compile_violated`): when every step of `compile` succeeds the caller's directory is restored and the temporary directory removed. -/
theorem C59_compile_partial (env : CompileEnv) (s : OS) (hcwd : s.cwd ∈ s.dirs) (ht : env.temp ∉ s.dirs) (h1 : env.copyDeps = .ok ()) (h2 : env.texdoc = .ok ())
    (h3 : env.copyTex = .ok ()) (h4 : env.latex = .ok ()) (h5 : env.copyPdf = .ok ()) : compile env s = (s, .ok ()) := by
  have : s.cwd ∈ (env.temp :: s.dirs).erase env.temp := by simpa using hcwd
  simp [compile, getcwd, hcwd, h1, h2, h3, h4, h5, chdir]

/-- C59 is false for `compile`: if LaTeX cannot be started, it returns normally with the process in the temporary directory, which is left behind; if any step after entering
the temporary directory raises, the process is left there as well. -/
theorem C59_compile_violated (env : CompileEnv) (s : OS) (hcwd : s.cwd ∈ s.dirs) (h1 : env.copyDeps = .ok ())
    (h : env.texdoc ≠ .ok () ∨ env.copyTex ≠ .ok () ∨ env.latex ≠ .ok () ∨ env.copyPdf ≠ .ok ()) :
    (compile env s).1 = { cwd := env.temp, dirs := env.temp :: s.dirs } ∧
    (env.texdoc = .ok () → env.copyTex = .ok () → env.latex = .error .fileNotFoundError → (compile env s).2 = .ok ()) := by
  constructor
  · simp only [compile, getcwd, if_pos hcwd, h1, chdir, List.mem_cons, true_or, if_true]
    rcases h2 : env.texdoc with e | _
    · rfl
    · rcases h3 : env.copyTex with e | _
      · rfl
      · rcases h4 : env.latex with e | _
        · simp only; split <;> rfl
        · rcases h5 : env.copyPdf with e | _
          · rfl
          · rw [h2, h3, h4, h5] at h
            simp at h
  · intro a b c
    simp [compile, getcwd, if_pos hcwd, h1, chdir, a, b, c]

/-- Non-vacuity: LaTeX is not installed. -/
example : ∃ (env : CompileEnv) (s : OS), s.cwd ∈ s.dirs ∧ env.copyDeps = .ok () ∧ env.texdoc = .ok () ∧ env.copyTex = .ok () ∧ env.latex = .error .fileNotFoundError ∧
    (compile env s).1.cwd ≠ s.cwd :=
  ⟨⟨["tmp", "x"], .ok (), .ok (), .ok (), .error .fileNotFoundError, .ok ()⟩, ⟨["home"], [["home"]]⟩, by decide, rfl, rfl, rfl, rfl, by decide⟩

/-- C59 for the `report` command: there `compile` runs inside a block, so the directory is restored whatever happens. -/
theorem C59_report (outputdir : Dir) (env : CompileEnv) (s : OS) (hcwd : s.cwd ∈ s.dirs) (ht : env.temp ∉ s.dirs) : (reportBlock outputdir env s).1.cwd = s.cwd := by
  by_cases h1 : outputdir.resolve s.cwd ∈ s.dirs
  · have hk : s.cwd ∈ (compile env { s with cwd := outputdir.resolve s.cwd }).1.dirs := by
      have hne : s.cwd ≠ env.temp := fun h => ht (h ▸ hcwd)
      simp only [compile, getcwd, if_pos h1, chdir, List.mem_cons, true_or, if_true]
      rcases env.copyDeps with e | _
      · simp [hcwd]
      · rcases env.texdoc with e | _
        · simp [hcwd]
        · rcases env.copyTex with e | _
          · simp [hcwd]
          · rcases env.latex with e | _
            · simp only; split <;> simp [hcwd]
            · rcases env.copyPdf with e | _
              · simp [hcwd]
              · simp only
                split
                · simpa using hcwd
                · simpa using hcwd
    unfold reportBlock
    rw [(C59_restored outputdir (compile env) s hcwd).1 h1 hk]
  · unfold reportBlock
    rw [(C59_restored outputdir (compile env) s hcwd).2 h1]

/-- Non-vacuity of `C59_report`. -/
example : (["home"] : Path) ∈ (⟨["home"], [["home"]]⟩ : OS).dirs ∧ (["tmp", "x"] : Path) ∉ (⟨["home"], [["home"]]⟩ : OS).dirs := by decide

end Radvel
