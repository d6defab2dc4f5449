import Verif.Model.Import

/-!
# C82: the import hook
-/

namespace Upd
open Py

variable {β : Type}

/-- What the function does if each `find_spec` which takes place meanwhile returns `None`. -/
def Spec.alone {α : Type} : Prog β α → Except Exn α
  | .ret a => .ok a
  | .raise x => .error x
  | .find _ k => alone (k (.ok none))

/-- What importing a module should do, on its own: `none` for a module which the other finders have to look for; the extension file after that. -/
def Spec.imported (T : Tools β) (name : Nat) (st : State β) : Except Exn (Option β) × State β :=
  let gone := fun n => if n = name then none else st.ext n
  let quiet := fun (x : Exn) => if x = .importError then (.ok none : Except Exn (Option β)) else .error x
  match alone (T.setup name) with
  | .error x => (quiet x, st)
  | .ok _ =>
    match alone (T.build name) with
    | .error x => (quiet x, { st with ext := gone, builds := st.builds ++ [name] })
    | .ok b =>
      (match alone (T.load name b) with
      | .error x => quiet x
      | .ok _ => .ok (some b),
      { st with ext := fun n => if n = name then some b else st.ext n, builds := st.builds ++ [name] })

open Spec

theorem run_alone {α : Type} {find : Nat → State β → Except Exn (Option β) × State β} (hf : ∀ n st, st.running = true → find n st = (.ok none, st)) :
    ∀ (p : Prog β α) (st : State β), st.running = true → p.run find st = (alone p, st)
  | .ret _, _, _ => rfl
  | .raise _, _, _ => rfl
  | .find n k, st, h => by
    rw [Prog.run, hf n st h]
    exact run_alone hf (k (.ok none)) st h

theorem find_running (T : Tools β) (fuel name : Nat) (st : State β) (h : st.running = true) : findSpec T (fuel + 1) name st = (.ok none, st) := by
  simp [findSpec, h]

/-- C82. Whatever `cppimport` does, and whatever is imported meanwhile, an import through the hook has one outcome, which depends on the steps alone: a module for
which there is no source, or whose steps raise `ImportError`, is left to the other finders; another exception is propagated; otherwise the module has been built by this
very import. In every case, the hook is as it was before: enabled. -/
theorem C82_exact (T : Tools β) (fuel name : Nat) (st : State β) (h : st.running = false) :
    findSpec T (fuel + 2) name st = imported T name st := by
  have hf : ∀ n st, st.running = true → findSpec T (fuel + 1) n st = (.ok none, st) := fun n st h => find_running T fuel n st h
  have hst : ({ st with running := false } : State β) = st := by cases st; simp only at h; subst h; rfl
  rw [findSpec, if_neg (by simp [h])]
  unfold tryBlock imported
  rw [run_alone hf _ _ rfl]
  cases alone (T.setup name) with
  | error x => cases x <;> simp [hst]
  | ok u =>
    simp only
    rw [run_alone hf (T.build name) _ rfl]
    cases alone (T.build name) with
    | error x => cases x <;> simp [h]
    | ok b =>
      simp only
      rw [run_alone hf (T.load name b) _ rfl]
      have he : (fun n => if n = name then some b else if n = name then none else st.ext n) = fun n => if n = name then some b else st.ext n := by
        funext n; by_cases hn : n = name <;> simp [hn]
      cases alone (T.load name b) with
      | error x => cases x <;> simp [he, h]
      | ok u => simp only [he, h]

/-- The bound on the depth of the calls has no effect. -/
theorem C82_depth (T : Tools β) (fuel name : Nat) (st : State β) : findSpec T (fuel + 2) name st = findSpec T 2 name st := by
  cases h : st.running
  · rw [C82_exact T fuel name st h, C82_exact T 0 name st h]
  · rw [find_running T _ name st h, find_running T _ name st h]

/-- Imports one after another; the outcomes are dropped. -/
def importAll (T : Tools β) : List Nat → State β → State β
  | [], st => st
  | n :: ns, st => importAll T ns (findSpec T 2 n st).2

theorem imported_running (T : Tools β) (name : Nat) (st : State β) : (imported T name st).2.running = st.running := by
  unfold imported
  cases alone (T.setup name) with
  | error x => rfl
  | ok u => cases alone (T.build name) <;> rfl

theorem imported_builds (T : Tools β) (name : Nat) (st : State β) :
    (imported T name st).2.builds = st.builds ∨ (imported T name st).2.builds = st.builds ++ [name] := by
  unfold imported
  cases alone (T.setup name) with
  | error x => exact .inl rfl
  | ok u => cases alone (T.build name) <;> exact .inr rfl

/-- C82. After any sequence of imports, whatever their outcomes, the hook is enabled and it has built nothing but modules of the sequence, each of them at most once by import, in order. -/
theorem C82_enabled (T : Tools β) (names : List Nat) (st : State β) (h : st.running = false) :
    (importAll T names st).running = false ∧ ∃ built, List.Sublist built names ∧ (importAll T names st).builds = st.builds ++ built := by
  induction names generalizing st with
  | nil => exact ⟨h, [], .slnil, by simp [importAll]⟩
  | cons n ns ih =>
    have he := C82_exact T 0 n st h
    have hr : (findSpec T 2 n st).2.running = false := by rw [he, imported_running, h]
    obtain ⟨h1, built, hs, hb⟩ := ih _ hr
    refine ⟨h1, ?_⟩
    rcases imported_builds T n st with hi | hi
    · exact ⟨built, hs.cons _, by rw [importAll, hb, he, hi]⟩
    · exact ⟨n :: built, hs.cons_cons _, by rw [importAll, hb, he, hi]; simp⟩

/-- C82. A module which the hook gives is never a stale one: it is what `build_safely` has just made, and the extension file is this one. -/
theorem C82_fresh (T : Tools β) (name : Nat) (st : State β) (b : β) (h : (findSpec T 2 name st).1 = .ok (some b)) :
    alone (T.build name) = .ok b ∧ (findSpec T 2 name st).2.ext name = some b ∧ (findSpec T 2 name st).2.builds = st.builds ++ [name] := by
  cases hr : st.running
  · rw [C82_exact T 0 name st hr] at h ⊢
    unfold imported at h ⊢
    cases hs : alone (T.setup name) with
    | error x => simp only [hs] at h; cases x <;> simp at h
    | ok u =>
      simp only [hs] at h ⊢
      cases hb : alone (T.build name) with
      | error x => simp only [hb] at h; cases x <;> simp at h
      | ok b' =>
        simp only [hb] at h ⊢
        cases hl : alone (T.load name b') with
        | error x => simp only [hl] at h; cases x <;> simp at h
        | ok u =>
          simp only [hl, Except.ok.injEq, Option.some.injEq] at h
          subst h; simp
  · rw [find_running T 1 name st hr] at h; simp at h

/-- C82. The other extension files are left alone. -/
theorem C82_others (T : Tools β) (name : Nat) (st : State β) (n : Nat) (hn : n ≠ name) : (findSpec T 2 name st).2.ext n = st.ext n := by
  cases hr : st.running
  · rw [C82_exact T 0 name st hr]
    unfold imported
    cases alone (T.setup name) with
    | error x => rfl
    | ok u => cases alone (T.build name) <;> simp [hn]
  · rw [find_running T 1 name st hr]

/-- C82. If the sources do not compile, the extension file of the previous import is lost. -/
theorem C82_failed_build (T : Tools β) (name : Nat) (st : State β) (x : Exn) (h : st.running = false) (hs : alone (T.setup name) = .ok ())
    (hb : alone (T.build name) = .error x) : (findSpec T 2 name st).2.ext name = none := by
  rw [C82_exact T 0 name st h]
  simp [imported, hs, hb]

/-- C82, full statement: the hook also serves the modules which are imported by a module which is being loaded. All the sources compile (`bin`), and `name` can be
loaded if the modules which it imports are found: then it is found. -/
def C82_Statement : Prop :=
  ∀ (β : Type) (T : Tools β) (bin : Nat → β) (name : Nat) (st : State β), st.running = false →
    (∀ n, T.setup n = .ret () ∧ T.build n = .ret (bin n)) →
    ((T.load name (bin name)).run (fun n st => (.ok (some (bin n)), st)) st).1 = .ok () →
    (findSpec T 2 name st).1 = .ok (some (bin name))

/-- C82. The statement holds for modules which import no other one while they are loaded. -/
theorem C82_found_partial (T : Tools β) (bin : Nat → β) (name : Nat) (st : State β) (h : st.running = false)
    (hb : ∀ n, T.setup n = .ret () ∧ T.build n = .ret (bin n)) (hl : T.load name (bin name) = .ret ()) :
    (findSpec T 2 name st).1 = .ok (some (bin name)) := by
  rw [C82_exact T 0 name st h]
  simp [imported, (hb name).1, (hb name).2, alone, hl]

/-- Module 0 imports module 1 while it is loaded. -/
private def nesting : Tools Nat where
  setup _ := .ret ()
  build n := .ret (n + 10)
  load n _ := if n = 0 then .find 1 fun r => match r with
    | .ok (some _) => .ret ()
    | _ => .raise .importError
  else .ret ()

private def fresh : State Nat := ⟨false, fun _ => none, []⟩

theorem C82_full_statement_is_false : ¬ C82_Statement := by
  intro h
  have := h Nat nesting (· + 10) 0 fresh rfl (fun n => ⟨rfl, rfl⟩) rfl
  exact absurd this (by rw [C82_exact nesting 0 0 fresh rfl]; simp [imported, nesting, alone])

/-- Both modules can be imported, module 0 once module 1 has been loaded by other means; importing module 0 first gives `None`. -/
example : (findSpec nesting 2 1 fresh).1 = .ok (some 11) ∧ (findSpec nesting 2 0 fresh).1 = .ok none := ⟨rfl, rfl⟩

/-- `C82_enabled`, `C82_fresh`: module 1, then module 0 (which raises), then module 1 again. -/
example : (importAll nesting [1, 0, 1] fresh).builds = [1, 0, 1] ∧ (importAll nesting [1, 0, 1] fresh).ext 1 = some 11 := ⟨rfl, rfl⟩

/-- `C82_failed_build`: the sources of module 3 do not compile any more. -/
example : (findSpec { nesting with build := fun _ => .raise .other } 2 3 ⟨false, fun _ => some 5, []⟩).2.ext 3 = none :=
  C82_failed_build _ 3 _ .other rfl rfl rfl

/-- The tools raise while module 1 is built. -/
example (st : State Nat) (h : st.running = false) :
    findSpec { nesting with build := fun _ => .raise .other } 7 1 st =
      (.error .other, { st with ext := fun n => if n = 1 then none else st.ext n, builds := st.builds ++ [1] }) :=
  C82_exact _ 5 1 st h

/-- How deep imports nest does not matter. -/
example (st : State Nat) : findSpec nesting 40 0 st = findSpec nesting 2 0 st := C82_depth nesting 38 0 st

example (names : List Nat) : (importAll nesting names fresh).running = false ∧ (importAll nesting names fresh).builds.length ≤ names.length := by
  obtain ⟨h1, built, h2, h3⟩ := C82_enabled nesting names fresh rfl
  exact ⟨h1, by rw [h3]; exact h2.length_le⟩

/-- An extension file from before. -/
example : (findSpec nesting 2 1 ⟨false, fun _ => some 5, [1]⟩).2.ext 1 = some 11 ∧ (findSpec nesting 2 1 ⟨false, fun _ => some 5, [1]⟩).2.ext 2 = some 5 :=
  ⟨(C82_fresh nesting 1 ⟨false, fun _ => some 5, [1]⟩ 11 rfl).2.1, C82_others nesting 1 ⟨false, fun _ => some 5, [1]⟩ 2 (by decide)⟩

example (st : State Nat) (h : st.running = false) : (findSpec nesting 2 3 st).1 = .ok (some 13) :=
  C82_found_partial nesting (· + 10) 3 st h (fun _ => ⟨rfl, rfl⟩) rfl

end Upd
