import Verif.Model.Package

/-!
# C89: the Python package and its environment
-/

namespace Upd
open Py

/-- The compilers a user has chosen: those of the environment if both are there, those which Python has been built with otherwise. -/
def Spec.chosen (H : Host) (env : Env) : Option (String × String) :=
  match env "CC", env "CXX" with
  | some c, some d => some (c, d)
  | _, _ =>
    match H.cc, H.cxx with
    | some c, some d => some (c, d)
    | _, _ => none

/-- `ccache` in front of a command, `n` times. -/
def Spec.ccaches : Nat → String → String
  | 0, c => c
  | n + 1, c => "ccache " ++ ccaches n c

/-- How many times the body of the package runs along the steps; the flag says whether the package is loaded. -/
def Spec.executions : Bool → List Step → Nat
  | _, [] => 0
  | true, .imp :: ss => executions true ss
  | false, .imp :: ss => executions true ss + 1
  | true, .reload :: ss => executions true ss + 1
  | false, .reload :: ss => executions false ss
  | _, .spawn :: ss => executions false ss

/-- Whether the present process has imported the package, or tried to. -/
def Spec.tried : Bool → List Step → Bool
  | b, [] => b
  | _, .imp :: ss => tried true ss
  | b, .reload :: ss => tried b ss
  | _, .spawn :: ss => tried false ss

/-- The list of extra directories as the program sees it: the last one given to `set_extra_include_dirs`. -/
def Spec.lastGiven : Nat → List ConfigStep → Nat
  | r, [] => r
  | _, .setExtra r :: ss => lastGiven r ss
  | r, .mutate _ _ :: ss => lastGiven r ss

/-- The content of a list of the program. -/
def Spec.contentOf (r : Nat) : List String → List ConfigStep → List String
  | dirs, [] => dirs
  | dirs, .setExtra _ :: ss => contentOf r dirs ss
  | dirs, .mutate r' dirs' :: ss => contentOf r (if r = r' then dirs' else dirs) ss

open Spec

theorem ccaches_succ (n : Nat) (c : String) : ccaches (n + 1) c = ccaches n ("ccache " ++ c) := by
  induction n with
  | zero => rfl
  | succ n ih => rw [ccaches, ih]; rfl

theorem ccaches_length (n : Nat) (c : String) : (ccaches n c).length = 7 * n + c.length := by
  induction n with
  | zero => simp [ccaches]
  | succ n ih =>
    rw [ccaches, String.length_append, ih]
    have : "ccache ".length = 7 := by decide
    omega

theorem Env.set_same (env : Env) (n v : String) : env.set n v n = some v := by simp [Env.set]
theorem Env.set_other {n m : String} (env : Env) (v : String) (h : m ≠ n) : env.set n v m = env m := by simp [Env.set, h]

theorem initBody_chosen {H : Host} {env : Env} {c d : String} (hc : chosen H env = some (c, d)) (hp : H.ccache (env "PATH") = true) :
    (initBody H env).1 = .ok ∧ (initBody H env).2 "CC" = some ("ccache " ++ c) ∧ (initBody H env).2 "CXX" = some d ∧
      ∀ n, n ≠ "CC" → n ≠ "CXX" → (initBody H env).2 n = env n := by
  unfold chosen at hc
  unfold initBody compilers
  rcases h1 : env "CC" with _ | c' <;> rcases h2 : env "CXX" with _ | d' <;> simp only [h1, h2] at hc ⊢
  case some.some =>
    cases hc
    simp [prefixed, hp, h1, Env.set, h2]
    intro n a b; simp [a]
  all_goals
    rcases h3 : H.cc with _ | c'' <;> rcases h4 : H.cxx with _ | d'' <;> simp only [h3, h4] at hc <;> cases hc
    simp [prefixed, Env.set, hp]
    intro n a b
    simp [a, b]

theorem chosen_after {H : Host} {env : Env} {c d : String} (h1 : env "CC" = some c) (h2 : env "CXX" = some d) : chosen H env = some (c, d) := by
  simp [chosen, h1, h2]

/-- C89. One import, when the compilers are known and `ccache` is there: it succeeds, the C compiler is the chosen one behind `ccache`, the C++ compiler is the chosen one, the
other variables are as they were, and the hook is installed. -/
theorem C89_import {H : Host} {env : Env} {c d : String} (hc : chosen H env = some (c, d)) (hp : H.ccache (env "PATH") = true) :
    ∃ st, importPackage H (.start env) = (.ok, st) ∧ st.package = true ∧ st.hooks = 1 ∧ st.env "CC" = some ("ccache " ++ c) ∧ st.env "CXX" = some d ∧
      ∀ n, n ≠ "CC" → n ≠ "CXX" → st.env n = env n := by
  obtain ⟨h1, h2, h3, h4⟩ := initBody_chosen hc hp
  rcases hb : initBody H env with ⟨x, env'⟩
  rw [hb] at h1 h2 h3 h4
  simp only at h1
  subst h1
  exact ⟨⟨env', true, true, 1⟩, by simp [importPackage, Interp.start, importSubmodules, hb], rfl, rfl, h2, h3, h4⟩

theorem step_execution {H : Host} {st : Interp} {c d : String} (hc : chosen H st.env = some (c, d)) (hp : H.ccache (st.env "PATH") = true) (hk : st.package = false) :
    (importPackage H st).1 = .ok ∧ (importPackage H st).2.package = true ∧ (importPackage H st).2.env "CC" = some ("ccache " ++ c) ∧
      (importPackage H st).2.env "CXX" = some d ∧ ∀ n, n ≠ "CC" → n ≠ "CXX" → (importPackage H st).2.env n = st.env n := by
  obtain ⟨h1, h2, h3, h4⟩ := initBody_chosen hc hp
  have he : (importSubmodules st).env = st.env := by unfold importSubmodules; split <;> rfl
  rcases hb : initBody H st.env with ⟨x, env'⟩
  rw [hb] at h1 h2 h3 h4
  simp only at h1
  subst h1
  have e : importPackage H st = (.ok, { importSubmodules st with env := env', package := true }) := by simp [importPackage, hk, he, hb]
  rw [e]
  exact ⟨rfl, rfl, h2, h3, h4⟩

theorem reload_execution {H : Host} {st : Interp} {c d : String} (hc : chosen H st.env = some (c, d)) (hp : H.ccache (st.env "PATH") = true) (hk : st.package = true) :
    (reloadPackage H st).1 = .ok ∧ (reloadPackage H st).2.package = true ∧ (reloadPackage H st).2.env "CC" = some ("ccache " ++ c) ∧
      (reloadPackage H st).2.env "CXX" = some d ∧ ∀ n, n ≠ "CC" → n ≠ "CXX" → (reloadPackage H st).2.env n = st.env n := by
  obtain ⟨h1, h2, h3, h4⟩ := initBody_chosen hc hp
  have he : (importSubmodules st).env = st.env := by unfold importSubmodules; split <;> rfl
  have hk' : (importSubmodules st).package = true := by unfold importSubmodules; split <;> exact hk
  have e : reloadPackage H st = ((initBody H st.env).1, { importSubmodules st with env := (initBody H st.env).2 }) := by simp [reloadPackage, hk, he]
  rw [e]
  exact ⟨h1, hk', h2, h3, h4⟩

/-- Invariant of histories, once both variables are there. -/
theorem history_env {H : Host} {d : String} : ∀ (ss : List Step) (st : Interp) (c : String), st.env "CC" = some c → st.env "CXX" = some d → H.ccache (st.env "PATH") = true →
    (runSteps H ss st).env "CC" = some (ccaches (executions st.package ss) c) ∧ (runSteps H ss st).env "CXX" = some d ∧
      ∀ n, n ≠ "CC" → n ≠ "CXX" → (runSteps H ss st).env n = st.env n
  | [], st, c, h1, h2, _ => by cases st.package <;> exact ⟨h1, h2, fun _ _ _ => rfl⟩
  | s :: ss, st, c, h1, h2, hp => by
    have hc : chosen H st.env = some (c, d) := chosen_after h1 h2
    rw [runSteps]
    cases s with
    | spawn =>
      have := history_env ss (.start st.env) c h1 h2 hp
      rcases hk : st.package <;> exact this
    | imp =>
      rcases hk : st.package
      · obtain ⟨_, k2, k3, k4, k5⟩ := step_execution hc hp hk
        have := history_env ss (importPackage H st).2 _ k3 k4 (by rw [k5 "PATH" (by decide) (by decide)]; exact hp)
        rw [k2] at this
        refine ⟨?_, this.2.1, fun n a b => (this.2.2 n a b).trans (k5 n a b)⟩
        rw [show executions false (.imp :: ss) = executions true ss + 1 from rfl, ccaches_succ]
        exact this.1
      · have e : importPackage H st = (.ok, st) := by simp [importPackage, hk]
        rw [Step.run, e]
        have := history_env ss st c h1 h2 hp
        rw [hk] at this
        exact this
    | reload =>
      rcases hk : st.package
      · have e : reloadPackage H st = (.notLoaded, st) := by simp [reloadPackage, hk]
        rw [Step.run, e]
        have := history_env ss st c h1 h2 hp
        rw [hk] at this
        exact this
      · obtain ⟨_, k2, k3, k4, k5⟩ := reload_execution hc hp hk
        have := history_env ss (reloadPackage H st).2 _ k3 k4 (by rw [k5 "PATH" (by decide) (by decide)]; exact hp)
        rw [k2] at this
        refine ⟨?_, this.2.1, fun n a b => (this.2.2 n a b).trans (k5 n a b)⟩
        rw [show executions true (.reload :: ss) = executions true ss + 1 from rfl, ccaches_succ]
        exact this.1

/-- C89. Along any history of imports, reloads and child processes which starts with an import in a new process: the C++ compiler is the chosen one, and `CC` is the chosen C
compiler behind as many `ccache` as the package has been executed, in this process or in those it descends from. The other variables are left as they were. -/
theorem C89_history {H : Host} {env : Env} {c d : String} (ss : List Step) (hc : chosen H env = some (c, d)) (hp : H.ccache (env "PATH") = true) :
    (runSteps H (.imp :: ss) (.start env)).env "CC" = some (ccaches (executions false (.imp :: ss)) c) ∧
      (runSteps H (.imp :: ss) (.start env)).env "CXX" = some d ∧
      ∀ n, n ≠ "CC" → n ≠ "CXX" → (runSteps H (.imp :: ss) (.start env)).env n = env n := by
  rw [runSteps]
  obtain ⟨_, k2, k3, k4, k5⟩ := step_execution (st := .start env) hc hp rfl
  have := history_env ss (importPackage H (.start env)).2 _ k3 k4 (by rw [k5 "PATH" (by decide) (by decide)]; exact hp)
  rw [k2] at this
  refine ⟨?_, this.2.1, fun n a b => (this.2.2 n a b).trans (k5 n a b)⟩
  rw [show executions false (.imp :: ss) = executions true ss + 1 from rfl, ccaches_succ]
  exact this.1

/-- Invariant: the hook has been installed by the process if the submodules have been imported. -/
theorem hooks_inv (H : Host) : ∀ (ss : List Step) (st : Interp), st.hooks = (if st.submodules then 1 else 0) → (st.package = true → st.submodules = true) →
    (runSteps H ss st).hooks = (if tried st.submodules ss then 1 else 0)
  | [], st, h, _ => h
  | s :: ss, st, h, hk => by
    rw [runSteps]
    have hs : (importSubmodules st).submodules = true ∧ (importSubmodules st).hooks = 1 := by
      unfold importSubmodules
      split
      · rename_i e; rw [h, if_pos e]; exact ⟨e, rfl⟩
      · rename_i e; refine ⟨rfl, ?_⟩; simp only [h, if_neg e]
    cases s with
    | spawn =>
      have := hooks_inv H ss (.start st.env) rfl (fun e => absurd e (by simp [Interp.start]))
      exact this
    | imp =>
      have a : (importPackage H st).2.submodules = true ∧ (importPackage H st).2.hooks = 1 := by
        unfold importPackage
        split
        · rename_i e; simp only; rw [h, hk e]; exact ⟨rfl, rfl⟩
        · simp only
          split <;> exact hs
      have := hooks_inv H ss (importPackage H st).2 (by rw [a.1, a.2]; rfl) (fun _ => a.1)
      rw [a.1] at this
      exact this
    | reload =>
      have a : (reloadPackage H st).2.submodules = st.submodules ∧ (reloadPackage H st).2.hooks = st.hooks := by
        unfold reloadPackage
        split
        · rename_i e
          simp only
          rw [hs.1, hs.2, h, hk e]
          exact ⟨rfl, rfl⟩
        · exact ⟨rfl, rfl⟩
      have b : (reloadPackage H st).2.package = true → (reloadPackage H st).2.submodules = true := by
        rw [a.1]
        unfold reloadPackage
        split
        · rename_i e; exact fun _ => hk e
        · exact hk
      have := hooks_inv H ss (reloadPackage H st).2 (by rw [a.1, a.2]; exact h) b
      rw [a.1] at this
      exact this

/-- C89. On any machine and along any history, failed imports included, the hook is installed once in the processes which have imported the package or tried to, and in no other. -/
theorem C89_hooks (H : Host) (env : Env) (ss : List Step) : (runSteps H ss (.start env)).hooks = (if tried false ss then 1 else 0) :=
  hooks_inv H ss (.start env) rfl (fun e => absurd e (by simp [Interp.start]))

/-- C89. No import ends up with a missing `CC`: it succeeds exactly when the compilers are known and `ccache` is there; otherwise `TypeError` is raised when the compilers are
unknown and `EnvironmentError` when they are known. -/
theorem C89_outcome (H : Host) (env : Env) :
    (importPackage H (.start env)).1 = if (chosen H env).isSome then (if H.ccache (env "PATH") then .ok else .environmentError) else .typeError := by
  have key : (importPackage H (.start env)).1 = (initBody H env).1 := by
    unfold importPackage
    rw [if_neg (by simp [Interp.start])]
    have he : (importSubmodules (.start env)).env = env := rfl
    simp only [he]
    rcases initBody H env with ⟨x, e⟩
    cases x <;> rfl
  rw [key]
  unfold initBody compilers chosen prefixed
  rcases h1 : env "CC" with _ | c' <;> rcases h2 : env "CXX" with _ | d' <;> rcases h3 : H.cc with _ | c'' <;> rcases h4 : H.cxx with _ | d'' <;>
    rcases h5 : H.ccache (env "PATH") <;> simp [h1, h2, h5, Env.set]

/-- C89. A failed import is not loaded, but the hook stays in `sys.meta_path`. -/
theorem C89_failed {H : Host} {env : Env} {x : Ended} {st : Interp} (h : importPackage H (.start env) = (x, st)) (hx : x ≠ .ok) : st.package = false ∧ st.hooks = 1 := by
  unfold importPackage at h
  rw [if_neg (by simp [Interp.start])] at h
  simp only at h
  split at h
  · cases h; exact absurd rfl hx
  · cases h; exact ⟨rfl, rfl⟩

/-- C89, as intended: the compilers of the environment are kept, the C compiler is run through `ccache`; importing the package in a child process does not change the
environment further; a failed import has no effect. -/
def C89_Statement : Prop :=
  (∀ (H : Host) (env : Env) (st : Interp), importPackage H (.start env) = (.ok, st) →
    (∀ c, env "CC" = some c → st.env "CC" = some ("ccache " ++ c)) ∧ (∀ d, env "CXX" = some d → st.env "CXX" = some d)) ∧
  (∀ (H : Host) (env : Env) (st st' : Interp), importPackage H (.start env) = (.ok, st) → importPackage H (.start st.env) = (.ok, st') → st'.env = st.env) ∧
  (∀ (H : Host) (env : Env) (x : Ended) (st : Interp), importPackage H (.start env) = (x, st) → x ≠ .ok → st = .start env)

/-- C89. Whoever has chosen one compiler only loses it: both are those which Python has been built with. -/
theorem C89_one_compiler {H : Host} {env : Env} {c d : String} (h : env "CC" = none ∨ env "CXX" = none) (h1 : H.cc = some c) (h2 : H.cxx = some d)
    (hp : H.ccache (env "PATH") = true) : ∃ st, importPackage H (.start env) = (.ok, st) ∧ st.env "CC" = some ("ccache " ++ c) ∧ st.env "CXX" = some d := by
  have hc : chosen H env = some (c, d) := by
    unfold chosen
    rcases h with h | h
    · simp [h, h1, h2]
    · rcases env "CC" <;> simp [h, h1, h2]
  obtain ⟨st, e, _, _, e1, e2, _⟩ := C89_import hc hp
  exact ⟨st, e, e1, e2⟩

/-- C89. The environment is never the same after an import in a child process of a process which has imported the package. -/
theorem C89_nested {H : Host} {env : Env} {st st' : Interp} (h : importPackage H (.start env) = (.ok, st)) (h' : importPackage H (.start st.env) = (.ok, st')) :
    st'.env ≠ st.env := by
  have key : ∀ (env : Env) (st : Interp), importPackage H (.start env) = (.ok, st) → ∃ c d, chosen H env = some (c, d) ∧ H.ccache (env "PATH") = true := by
    intro env st h
    have o := C89_outcome H env
    rw [h] at o
    rcases hc : chosen H env with _ | ⟨c, d⟩
    · rw [hc] at o; exact absurd o (by simp)
    · refine ⟨c, d, rfl, ?_⟩
      rcases hp : H.ccache (env "PATH")
      · rw [hc, hp] at o; exact absurd o (by simp)
      · rfl
  obtain ⟨c, d, hc, hp⟩ := key env st h
  obtain ⟨s1, e, _, _, e1, e2, _⟩ := C89_import hc hp
  rw [h] at e; cases e
  obtain ⟨c', d', hc', hp'⟩ := key st.env st' h'
  have hcc : chosen H st.env = some ("ccache " ++ c, d) := chosen_after e1 e2
  rw [hcc] at hc'; cases hc'
  obtain ⟨s2, e', _, _, e1', _, _⟩ := C89_import hcc hp'
  rw [h'] at e'; cases e'
  intro k
  rw [k, e1] at e1'
  have := congrArg (Option.map String.length) e1'
  simp only [Option.map_some, Option.some.injEq, String.length_append] at this
  have : "ccache ".length = 7 := by decide
  omega

/-- The machine of the examples. -/
def demoHost : Host := ⟨some "gcc", some "g++", fun _ => true⟩

/-- A machine without `ccache`. -/
def bareHost : Host := ⟨some "gcc", some "g++", fun _ => false⟩

/-- `CC=clang`, and nothing else. -/
def clangEnv : Env := fun n => if n = "CC" then some "clang" else none

/-- `CC=clang CXX=clang++`. -/
def clangsEnv : Env := fun n => if n = "CC" then some "clang" else if n = "CXX" then some "clang++" else none

theorem C89_full_statement_is_false : ¬ C89_Statement := by
  intro h
  obtain ⟨st, e, e1, _⟩ := C89_one_compiler (H := demoHost) (env := clangEnv) (c := "gcc") (d := "g++") (.inr rfl) rfl rfl rfl
  have := (h.1 _ _ _ e).1 "clang" rfl
  rw [e1] at this
  exact absurd this (by decide)

/-- C89, partial: the compilers are kept when both are in the environment. Missing: when one only is there, for which it is false (`C89_one_compiler`); child processes, for which
it is false (`C89_nested`); failed imports, for which it is false (`C89_failed`). -/
theorem C89_kept_partial {H : Host} {env : Env} {c d : String} {st : Interp} (h1 : env "CC" = some c) (h2 : env "CXX" = some d) (h : importPackage H (.start env) = (.ok, st)) :
    st.env "CC" = some ("ccache " ++ c) ∧ st.env "CXX" = some d ∧ ∀ n, n ≠ "CC" → n ≠ "CXX" → st.env n = env n := by
  have hc : chosen H env = some (c, d) := chosen_after h1 h2
  have o := C89_outcome H env
  rw [h, hc] at o
  have hp : H.ccache (env "PATH") = true := by
    rcases hp : H.ccache (env "PATH")
    · rw [hp] at o; exact absurd o (by simp)
    · rfl
  obtain ⟨s, e, _, _, e1, e2, e3⟩ := C89_import hc hp
  rw [h] at e; cases e
  exact ⟨e1, e2, e3⟩

theorem run_config : ∀ (ss : List ConfigStep) (c : Config), (c.run ss).extra = lastGiven c.extra ss ∧ ∀ r, (c.run ss).heap r = contentOf r (c.heap r) ss
  | [], _ => ⟨rfl, fun _ => rfl⟩
  | .setExtra _ :: ss, c => run_config ss (c.setExtra _)
  | .mutate _ _ :: ss, c => run_config ss (c.mutate _ _)

/-- C89. Along any history, an extension module is compiled with the directories of `setup_pybind11`, then that of the library, then those which the list last given to
`set_extra_include_dirs` has when the module is compiled; the standard asked for comes after the arguments of `setup_pybind11`. -/
theorem C89_include (pybind : Cfg → Cfg) (dir : String) (cfg : Cfg) (ss : List ConfigStep) (c : Config) :
    ((c.run ss).setup pybind dir cfg).includeDirs = (pybind cfg).includeDirs ++ dir :: contentOf (lastGiven c.extra ss) (c.heap (lastGiven c.extra ss)) ss ∧
      ((c.run ss).setup pybind dir cfg).compileArgs = (pybind cfg).compileArgs ++ ["-std=c++17"] := by
  obtain ⟨h1, h2⟩ := run_config ss c
  refine ⟨?_, rfl⟩
  simp only [Config.setup, h2, h1]
  rfl

/-! ### Examples -/

example : ∃ st, importPackage demoHost (.start clangsEnv) = (.ok, st) ∧ st.env "CC" = some "ccache clang" ∧ st.env "CXX" = some "clang++" := by
  obtain ⟨st, e, _, _, e1, e2, _⟩ := C89_import (H := demoHost) (env := clangsEnv) (c := "clang") (d := "clang++") rfl rfl
  exact ⟨st, e, e1, e2⟩

/-- A process which imports the package twice, reloads it, and whose child imports it. -/
example : (runSteps demoHost [.imp, .imp, .reload, .spawn, .reload, .imp] (.start clangEnv)).env "CC" = some "ccache ccache ccache gcc" :=
  (C89_history (H := demoHost) (env := clangEnv) (c := "gcc") (d := "g++") _ rfl rfl).1

/-- Two failed imports: the hook is there, once. -/
example : (runSteps bareHost [.imp, .imp] (.start clangEnv)).hooks = 1 ∧ (importPackage bareHost (.start clangEnv)).1 = .environmentError :=
  ⟨C89_hooks _ _ _, C89_outcome _ _⟩

example : (importPackage ⟨none, none, fun _ => true⟩ (.start clangEnv)).1 = .typeError := C89_outcome _ _

example : (importPackage bareHost (.start clangEnv)).2.package = false ∧ (importPackage bareHost (.start clangEnv)).2.hooks = 1 :=
  C89_failed (H := bareHost) (env := clangEnv) (x := .environmentError) rfl (by decide)

example : ∃ st, importPackage demoHost (.start clangEnv) = (.ok, st) ∧ st.env "CC" = some "ccache gcc" ∧ st.env "CXX" = some "g++" :=
  C89_one_compiler (c := "gcc") (d := "g++") (.inr rfl) rfl rfl rfl

example : (importPackage demoHost (.start (importPackage demoHost (.start clangsEnv)).2.env)).2.env ≠ (importPackage demoHost (.start clangsEnv)).2.env :=
  C89_nested (H := demoHost) (env := clangsEnv) rfl rfl

example : (importPackage demoHost (.start clangsEnv)).2.env "CC" = some "ccache clang" :=
  (C89_kept_partial (H := demoHost) (env := clangsEnv) (c := "clang") (d := "clang++") rfl rfl rfl).1

/-- The list is changed after it has been given to the library. -/
example : (((⟨fun _ => [], 0⟩ : Config).run [.mutate 1 ["a"], .setExtra 1, .mutate 1 ["a", "b"], .mutate 0 ["c"]]).setup
    (fun c => { c with includeDirs := c.includeDirs ++ ["pybind11"] }) "unpadded/include" ⟨["user"], []⟩).includeDirs = ["user", "pybind11", "unpadded/include", "a", "b"] :=
  (C89_include _ _ _ _ _).1

end Upd
