import Verif.Py.Dict

/-!
# The process's working directory: `radvel/utils.py` 385-403, `radvel/report.py` 125-173, `radvel/driver.py` 752-757
-/

namespace Radvel

/-- An absolute, normalised path. Used for /repo/radvel/utils.py 386-403, /repo/radvel/report.py 139-146. -/
abbrev Path := List String

/-- What the code can observe of the file system here: the current directory and the directories that exist. Used for /repo/radvel/utils.py 386-403, /repo/radvel/report.py 139-173. -/
structure OS where
  cwd : Path
  dirs : List Path
  deriving DecidableEq

/-- A piece of Python run on this state; an exception keeps the changes made before it. Models /repo/radvel/utils.py 386-403, /repo/radvel/report.py 125-173. -/
abbrev Prog (α : Type) := OS → OS × Except PyErr α

/-- `os.getcwd()`. Used for /repo/radvel/utils.py 386-403, /repo/radvel/report.py 139. -/
def getcwd : Prog Path := fun s => if s.cwd ∈ s.dirs then (s, .ok s.cwd) else (s, .error .fileNotFoundError)

/-- `os.chdir(p)`. Used for /repo/radvel/utils.py 386-403, /repo/radvel/report.py 146. -/
def chdir (p : Path) : Prog Unit := fun s => if p ∈ s.dirs then ({ s with cwd := p }, .ok ()) else (s, .error .fileNotFoundError)

/-- A directory argument: absolute, or relative to the current directory (`..` and links are not modelled). Models /repo/radvel/utils.py 386. -/
inductive Dir | abs (p : Path) | rel (p : Path)

/-- The path a directory argument stands for. Models /repo/radvel/utils.py 386-403. -/
def Dir.resolve (cwd : Path) : Dir → Path
  | .abs p => p
  | .rel p => cwd ++ p

/-- `with working_directory(dir): body`, /repo/radvel/utils.py 385-403. An exception of the `finally` part replaces the one of the body. -/
def withDir {α : Type} (dir : Dir) (body : Prog α) : Prog α := fun s =>
  match getcwd s with
  | (s, .error e) => (s, .error e)
  | (s, .ok cwd) =>
    match chdir (dir.resolve s.cwd) s with
    | (s, .error e) => (s, .error e)
    | (s, .ok ()) =>
      match body s with
      | (s, r) =>
        match chdir cwd s with
        | (s, .error e) => (s, .error e)
        | (s, .ok ()) => (s, r)

/-- What happens outside of the modelled state during one `compile`: the new directory that `tempfile.mkdtemp` makes and the outcome of each step. Models /repo/radvel/report.py 125-173. -/
structure CompileEnv where
  temp : Path
  copyDeps : Except PyErr Unit
  texdoc : Except PyErr Unit
  copyTex : Except PyErr Unit
  latex : Except PyErr Unit
  copyPdf : Except PyErr Unit

/-- `RadvelReport.compile`, /repo/radvel/report.py 125-173, as far as the working directory is concerned. `texdoc` stands for lines 148-150. An `OSError` from starting LaTeX (or a
subclass, as `FileNotFoundError`) is caught and ends the function (lines 163-169). `shutil.rmtree` always succeeds. -/
def compile (env : CompileEnv) : Prog Unit := fun s =>
  match getcwd s with
  | (s, .error e) => (s, .error e)
  | (s, .ok current) =>
    let s := { s with dirs := env.temp :: s.dirs }
    match env.copyDeps with
    | .error e => (s, .error e)
    | .ok () =>
      match chdir env.temp s with
      | (s, .error e) => (s, .error e)
      | (s, .ok ()) =>
        match env.texdoc with
        | .error e => (s, .error e)
        | .ok () =>
          match env.copyTex with
          | .error e => (s, .error e)
          | .ok () =>
            match env.latex with
            | .error e => if e = .osError ∨ e = .fileNotFoundError then (s, .ok ()) else (s, .error e)
            | .ok () =>
              match env.copyPdf with
              | .error e => (s, .error e)
              | .ok () => chdir current { s with dirs := s.dirs.erase env.temp }

/-- The end of `driver.report`, /repo/radvel/driver.py 752-757. -/
def reportBlock (outputdir : Dir) (env : CompileEnv) : Prog Unit := withDir outputdir (compile env)

end Radvel
