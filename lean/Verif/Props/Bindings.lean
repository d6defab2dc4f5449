import Verif.Lemmas.Bindings

/-!
# Programs with tuples, views and structured bindings

C97: such programs behave as if tuples were lists of values, views parts of these lists, and the names of structured bindings copies.
-/

namespace Upd
open Spec

variable {P : Platform}

/-- C97. A program which makes, copies, assigns, modifies, binds and destroys tuples, makes views of them, and reads and writes through the views and the names of structured bindings,
reads the values which the same program reads if tuples are lists of values; it has undefined behaviour exactly if that one uses a tuple which has been destroyed, possibly through
a view. -/
theorem C97_programs (hP : P.Valid) (sts : List Stmt) (ho : ProgramOk P sts .empty) :
    match execValues sts .empty with
    | .ok a => ∃ c, Store.exec P sts .empty = .ok c ∧ c.out = a.out ∧ c.names = a.names ∧
        ∀ (i : Nat) (u : ATuple) (vs : List Val), a.tuples[i]? = some u → u.vals = some vs → ∃ (t : TupleObj) (mem : Mem),
          c.tuples[i]? = some t ∧ t.mem = some mem ∧ ∀ k (hk : k < vs.length), (Tuple.self u.e u.s u.ts).get P k mem = .ok vs[k]
    | .error f => Store.exec P sts .empty = .error f := by
  have h0 : Stands P .empty .empty := ⟨rfl, fun i t u h => by simp [Store.empty] at h, rfl, fun n v w h => by simp [Store.empty] at h, rfl, rfl⟩
  have h := exec_refines hP sts .empty .empty h0 ho
  cases he : execValues sts .empty with
  | error f => rw [he] at h; exact h
  | ok a =>
    rw [he] at h
    obtain ⟨c, h1, h2⟩ := h
    refine ⟨c, h1, h2.out, h2.names, ?_⟩
    intro i u vs hu hv
    rcases stands_cases h2 i with ⟨_, k⟩ | ⟨_, k⟩ | ⟨t, u', mem, vs', k1, k2, k3, k4, _, _, hh, hb, hf, hm⟩
    · unfold AStore.vals at k; rw [hu] at k; simp only [hv] at k; cases k
    · unfold AStore.vals at k; rw [hu] at k; simp only [hv] at k; cases k
    · rw [hu] at k2
      injection k2 with k2
      subst k2
      rw [hv] at k4
      injection k4 with k4
      subst k4
      refine ⟨t, mem, k1, k3, fun k hk => ?_⟩
      rw [hold_get hP hh.sup hh.wf hh.loose hf hm, List.getElem?_eq_getElem hk]

/-- C97. The names of a structured binding are not references to the elements: whatever a program does next to the tuple or to the view which they come from, including its
destruction, a name keeps its value until it is assigned. This holds whatever the values. -/
theorem C97_snapshots {n : Nat} : ∀ {sts : List Stmt} {c c' : Store}, Store.exec P sts c = .ok c' → n < c.names.length → (∀ st ∈ sts, ¬ Assigns n st) →
    c'.names[n]? = c.names[n]?
  | [], c, c', h, _, _ => by injection h with h; subst h; rfl
  | st :: sts, c, c', h, hn, ha => by
    unfold Store.exec at h
    cases h1 : st.run P c with
    | error f => rw [h1] at h; cases h
    | ok c1 =>
      rw [h1, except_bind_ok] at h
      obtain ⟨h2, h3⟩ := run_names h1 hn (ha st (List.mem_cons_self ..))
      rw [C97_snapshots h h2 (fun st' h' => ha st' (List.mem_cons_of_mem _ h')), h3]

/-- C97. A view does not extend the lifetime of its tuple: once it has been destroyed, whatever is done next, reading, writing and binding through the view have undefined behaviour.
The same goes for the tuple itself. -/
theorem C97_dangling {sts : List Stmt} {c0 c1 c : Store} {i : Nat} (h0 : (Stmt.destroy i).run P c0 = .ok c1) (h : Store.exec P sts c1 = .ok c)
    {n : Nat} {w : ViewObj} (hw : c.views[n]? = some w) (hi : w.obj = i) (k : Nat) (v : Val) :
    (Stmt.getView n k).run P c = .error .dangling ∧ (Stmt.setView n k v).run P c = .error .dangling ∧
      (Stmt.bindView n).run P c = .error .dangling ∧ (Stmt.get i k).run P c = .error .dangling := by
  have hd : c1.bytes i = .error .dangling := by
    simp only [Stmt.run] at h0
    cases h1 : c0.bytes i with
    | error f => rw [h1] at h0; cases h0
    | ok p =>
      rw [h1] at h0
      injection h0 with h0
      subst h0
      unfold Store.bytes at h1
      cases h2 : c0.tuples[i]? with
      | none => rw [h2] at h1; cases h1
      | some t =>
        obtain ⟨hl, _⟩ := List.getElem?_eq_some_iff.1 h2
        unfold Store.bytes
        show (match (c0.tuples.set i _)[i]? with | none => _ | some t => _) = _
        rw [List.getElem?_set, if_pos rfl, if_pos hl]
  have hd := exec_dead h hd
  have hv : c.viewAt n = .ok w := by unfold Store.viewAt; rw [hw]
  subst hi
  simp only [Stmt.run, hv, except_bind_ok, hd]
  exact ⟨rfl, rfl, rfl, rfl⟩

/-! Examples. -/

/-- `tuple<LITTLE, TWOS_COMPLEMENT, uint8_t, int16_t> t{1, -2}; auto view = t.view<1, 1>(); auto &&[a, b] = t; view.set<0>(7); b = 9;`, then reads of `b`, of the element and of the
first name, destruction of the tuple, and another read of the name. -/
def ledProgram : List Stmt :=
  [.make .little .twosComplement [.uint 1, .sint 2] [.int 1, .int (-2)], .view 0 1 1, .bind 0, .setView 0 0 (.int 7), .readName 1, .assignName 1 (.int 9), .get 0 1, .readName 1,
    .destroy 0, .readName 0]

theorem ledProgram_ok : ProgramOk pc ledProgram .empty := by
  simp [ProgramOk, ledProgram, StmtOk, CanHold, runValues, AStore.empty, AStore.vals, AStore.viewAt, AStore.put, AStore.addNames, AStore.read, pc_supported, Ty.WFs, Ty.WF, LooseAll,
    Loose, Val.FitsAll, Val.Fits, Safe, MinSafe, Representable, InRange, bind, Except.bind]
  rintro w t rfl h ty h'
  injection h with h
  subst h
  injection h' with h'
  subst h'
  simp [Val.Fits, Safe, MinSafe, Representable, InRange]

example : ∃ c, Store.exec pc ledProgram .empty = .ok c ∧ c.out = [.int (-2), .int 7, .int 9, .int 1] := by
  have h := C97_programs pc_valid ledProgram ledProgram_ok
  exact h.imp fun _ h => ⟨h.1, h.2.1⟩

/-- `auto [x] = make_tuple(little_endian, twos_complement, uint8_t{5}).view<0, 1>();`: the tuple is destroyed at the end of the expression which initialises the copy of the view,
before the names are initialised. -/
example : Store.exec pc [.make .little .twosComplement [.uint 1] [.int 5], .view 0 0 1, .destroy 0, .bindView 0] .empty = .error .dangling := by
  have h : Store.exec pc [.make .little .twosComplement [.uint 1] [.int 5], .view 0 0 1] .empty =
    .ok ⟨[⟨.little, .twosComplement, [.uint 1], some [5#8]⟩], [⟨0, ⟨.little, .twosComplement, [.uint 1], 0⟩⟩], [], []⟩ := rfl
  exact (C97_dangling (P := pc) (i := 0) (n := 0) (sts := [])
    (c0 := ⟨[⟨.little, .twosComplement, [.uint 1], some [5#8]⟩], [⟨0, ⟨.little, .twosComplement, [.uint 1], 0⟩⟩], [], []⟩) rfl rfl rfl rfl 0 (.int 0)).2.2.1

/-- After the binding, the statement through the view changes the element and not the name. -/
example (c c' : Store) (h : Store.exec pc [.make .little .twosComplement [.uint 1, .sint 2] [.int 1, .int (-2)], .view 0 1 1, .bind 0] .empty = .ok c)
    (h' : Store.exec pc [.setView 0 0 (.int 7), .destroy 0] c = .ok c') : c'.names[1]? = some (.int (-2)) := by
  injection h with h
  subst h
  exact (C97_snapshots (n := 1) h' (Nat.lt_succ_self 1) (by simp [Assigns])).trans rfl

end Upd
