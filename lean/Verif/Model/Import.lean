/-!
# Model of py/unpadded/hook.py

`import m` asks each finder of `sys.meta_path` for the module; the hook of the library is the first one (py/unpadded/hook.py:54). Modules are numbered.
The functions of `cppimport` are parameters: what they return, what they raise, and which `find_spec` calls take place while they run (imports made by them, by the module which
is being loaded, or by other threads) are arbitrary.
-/

namespace Upd.Py

/-- An exception: `ImportError` (or a class derived from it) or any other one. -/
inductive Exn where
  | importError
  | other
  deriving DecidableEq, Repr

/-- A function of `cppimport` which is running: it returns, it raises, or `find_spec(name)` is called and it goes on according to the outcome. -/
inductive Prog (β : Type) (α : Type) where
  | ret (a : α)
  | raise (x : Exn)
  | find (name : Nat) (k : Except Exn (Option β) → Prog β α)

/-- `cppimport` and the file system. `β` is the type of the binaries; a module is represented by the binary which it is loaded from. -/
structure Tools (β : Type) where
  /-- `find_module_cpppath(fullname, opt_in=True)`, then `setup_module_data`: raises `ImportError` if there is no source which opts in -/
  setup : Nat → Prog β Unit
  /-- `build_safely`: what it stores as `ext_path` -/
  build : Nat → Prog β β
  /-- `load_module`, given the binary -/
  load : Nat → β → Prog β Unit

/-- State of the interpreter: `Hook._running`, the extension files (`ext_path`), the modules which `build_safely` has been called for. -/
structure State (β : Type) where
  running : Bool
  ext : Nat → Option β
  builds : List Nat

variable {β : Type}

/-- Runs a function of `cppimport`; `find` is `Hook.find_spec`. -/
def Prog.run {α : Type} (find : Nat → State β → Except Exn (Option β) × State β) : Prog β α → State β → Except Exn α × State β
  | .ret a, st => (.ok a, st)
  | .raise x, st => (.error x, st)
  | .find n k, st => (k (find n st).1).run find (find n st).2

/-- The `try` block of `find_spec` (py/unpadded/hook.py:25-36; the branch :28-29 is never taken, since the import system gives a name). -/
def tryBlock (T : Tools β) (find : Nat → State β → Except Exn (Option β) × State β) (name : Nat) (st : State β) : Except Exn β × State β :=
  match (T.setup name).run find { st with running := true } with
  | (.error x, st) => (.error x, st)
  | (.ok _, st) =>
    let st := { st with ext := fun n => if n = name then none else st.ext n, builds := st.builds ++ [name] }
    match (T.build name).run find st with
    | (.error x, st) => (.error x, st)
    | (.ok b, st) =>
      let st := { st with ext := fun n => if n = name then some b else st.ext n }
      match (T.load name b).run find st with
      | (.error x, st) => (.error x, st)
      | (.ok _, st) => (.ok b, st)

/-- `Hook.find_spec(fullname, ...)` (py/unpadded/hook.py:21-40): the spec, `None` for the module to be looked for by the other finders, or an exception. `fuel` bounds the depth of
the calls (0 is never reached: `C82_depth`). -/
def findSpec (T : Tools β) : (fuel : Nat) → Nat → State β → Except Exn (Option β) × State β
  | 0, _, st => (.error .other, st)
  | fuel + 1, name, st =>
    if st.running then (.ok none, st)
    else
      match tryBlock T (findSpec T fuel) name st with
      | (.ok b, st) => (.ok (some b), { st with running := false })
      | (.error .importError, st) => (.ok none, { st with running := false })
      | (.error .other, st) => (.error .other, { st with running := false })

end Upd.Py
