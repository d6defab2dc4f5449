/-!
# Model of py/unpadded/__init__.py and of the configuration in py/unpadded/hook.py

What importing the package does to the interpreter and to the environment which it hands over to the processes it starts, and what the extension modules are compiled with. It is
assumed that the submodules `_details`, `client` and `hook` are imported without error.
-/

namespace Upd.Py

/-- The environment variables. -/
abbrev Env := String → Option String

/-- `os.environ[name] = value`. -/
def Env.set (env : Env) (name value : String) : Env := fun n => if n = name then some value else env n

/-- The machine: `get_config_var("CC")` and `get_config_var("CXX")`, which are `None` where Python has not been compiled by a C compiler driver; whether
`which("ccache")`, which searches `PATH`, finds something. -/
structure Host where
  cc : Option String
  cxx : Option String
  ccache : Option String → Bool

/-- What an import or `importlib.reload` ends up with. -/
inductive Ended where
  | ok
  /-- `os.environ[name] = None` -/
  | typeError
  /-- `os.environ[name]` on a variable which is not there -/
  | keyError
  | environmentError
  /-- `importlib.reload` of a module which has not been imported -/
  | notLoaded
  deriving DecidableEq, Repr

/-- The first `if` (py/unpadded/__init__.py:9-11). -/
def compilers (H : Host) (env : Env) : Ended × Env :=
  if (env "CC").isSome && (env "CXX").isSome then (.ok, env)
  else
    match H.cc with
    | none => (.typeError, env)
    | some c =>
      match H.cxx with
      | none => (.typeError, env.set "CC" c)
      | some d => (.ok, (env.set "CC" c).set "CXX" d)

/-- The second `if` (py/unpadded/__init__.py:13-16). -/
def prefixed (H : Host) (env : Env) : Ended × Env :=
  if H.ccache (env "PATH") then
    match env "CC" with
    | none => (.keyError, env)
    | some c => (.ok, env.set "CC" ("ccache " ++ c))
  else (.environmentError, env)

/-- The statements of the package which follow its imports (py/unpadded/__init__.py:9-16). -/
def initBody (H : Host) (env : Env) : Ended × Env :=
  match compilers H env with
  | (.ok, env) => prefixed H env
  | r => r

/-- An interpreter: its environment, whether `sys.modules` has `unpadded` and its submodules, the number of instances of `Hook` in `sys.meta_path`. -/
structure Interp where
  env : Env
  package : Bool
  submodules : Bool
  hooks : Nat

/-- A new process: it inherits the environment. -/
def Interp.start (env : Env) : Interp := ⟨env, false, false, 0⟩

/-- `from .hook import *` (py/unpadded/__init__.py:5-7): the submodules are executed once, which puts a `Hook` in `sys.meta_path` (py/unpadded/hook.py:54). -/
def importSubmodules (st : Interp) : Interp := if st.submodules then st else { st with submodules := true, hooks := st.hooks + 1 }

/-- `import unpadded` (py/unpadded/__init__.py:1-16): nothing if `sys.modules` has it; when the body raises, `unpadded` is removed from `sys.modules`, its submodules are not. -/
def importPackage (H : Host) (st : Interp) : Ended × Interp :=
  if st.package then (.ok, st)
  else
    let st := importSubmodules st
    match initBody H st.env with
    | (.ok, env) => (.ok, { st with env := env, package := true })
    | (x, env) => (x, { st with env := env })

/-- `importlib.reload(unpadded)`: executes the body again (py/unpadded/__init__.py:1-16). -/
def reloadPackage (H : Host) (st : Interp) : Ended × Interp :=
  if st.package then
    let st := importSubmodules st
    ((initBody H st.env).1, { st with env := (initBody H st.env).2 })
  else (.notLoaded, st)

/-- What a program does with the package; `spawn` goes on in a child process. -/
inductive Step where
  | imp
  | reload
  | spawn
  deriving DecidableEq, Repr

/-- One step. -/
def Step.run (H : Host) : Step → Interp → Ended × Interp
  | .imp, st => importPackage H st
  | .reload, st => reloadPackage H st
  | .spawn, st => (.ok, .start st.env)

/-- The state after the steps; exceptions are caught by the program. -/
def runSteps (H : Host) : List Step → Interp → Interp
  | [], st => st
  | s :: ss, st => runSteps H ss (s.run H st).2

/-! ### Configuration of the extension modules -/

/-- The lists of strings of the program, by identity, and `_extra_include_dirs` (py/unpadded/hook.py:13), which is one of them. -/
structure Config where
  heap : Nat → List String
  extra : Nat

/-- `set_extra_include_dirs(include_dirs)` (py/unpadded/hook.py:49-51): keeps the list itself. -/
def Config.setExtra (r : Nat) (c : Config) : Config := { c with extra := r }

/-- The program changes the content of one of its lists. -/
def Config.mutate (r : Nat) (dirs : List String) (c : Config) : Config := { c with heap := fun n => if n = r then dirs else c.heap n }

/-- The `cfg` of an extension module: `include_dirs` and `extra_compile_args`. -/
structure Cfg where
  includeDirs : List String
  compileArgs : List String
  deriving DecidableEq, Repr

/-- `setup_unpadded(cfg)` (py/unpadded/hook.py:43-46); `pybind` is `setup_pybind11`, `dir` is `INCLUDE_DIRECTORY` (py/unpadded/hook.py:11). -/
def Config.setup (pybind : Cfg → Cfg) (dir : String) (cfg : Cfg) (c : Config) : Cfg :=
  let cfg := pybind cfg
  { includeDirs := cfg.includeDirs ++ ([dir] ++ c.heap c.extra), compileArgs := cfg.compileArgs ++ ["-std=c++17"] }

/-- What a program does with the lists. -/
inductive ConfigStep where
  | setExtra (r : Nat)
  | mutate (r : Nat) (dirs : List String)
  deriving DecidableEq, Repr

/-- The configuration after the steps. -/
def Config.run : List ConfigStep → Config → Config
  | [], c => c
  | .setExtra r :: ss, c => (c.setExtra r).run ss
  | .mutate r dirs :: ss, c => (c.mutate r dirs).run ss

end Upd.Py
