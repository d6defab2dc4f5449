import Verif.Lemmas.Session
import Verif.Spec.Nested

/-! # Callbacks which run the unbuffered dispatcher that runs them -/

namespace Upd
open Spec TypeList

variable {σ : Type} {P Q : Platform} {K : Keyring} {f : Features} {bodies : Nat → List Val → Body σ}

/-- The state of a queue which corresponds to the streams. -/
def QInv (P Q : Platform) (K : Keyring) (q : Queue σ) : Prop := QueueOk Q K q ∧ ResultsOk P K q.results

/-- An outcome which keeps it. -/
def QKeep {α : Type} (P Q : Platform) (K : Keyring) : Res (Queue σ) α → Prop
  | .ret _ q => QInv P Q K q
  | .threw q => QInv P Q K q
  | .fault _ => True

/-- A computation on streams and the one on queues. -/
def QSim {α : Type} (P Q : Platform) (K : Keyring) (x : Eff (Link σ) α) (y : Eff (Queue σ) α) : Prop :=
  ∀ q, QInv P Q K q → x (q.link K) = Res.link K (y q) ∧ QKeep P Q K (y q)

theorem body_sim {x : Eff (Link σ) Nat} {y : Eff (Queue σ) Nat} (h : QSim P Q K x y) : ∀ b : Body σ, QSim P Q K (b.run x) (evalBody y b)
  | .done r => fun q hq => ⟨rfl, hq⟩
  | .act z k => by
    intro q hq
    show (Eff.zoom Link.rest z >>= fun r => Body.run x (k r)) (q.link K) = _ ∧ _
    unfold evalBody
    cases hz : z q.world with
    | fault e =>
      refine ⟨Eff.bind_fault ?_, trivial⟩
      have : z (Link.rest.get (q.link K)) = .fault e := hz
      unfold Eff.zoom; rw [this]
    | threw w =>
      exact ⟨Eff.bind_threw (zoom_threw (L := Link.rest) (w := q.link K) hz), hq⟩
    | ret r w =>
      rw [Eff.bind_ret (zoom_ret (L := Link.rest) (w := q.link K) hz)]
      exact body_sim h (k r) { q with world := w } hq
  | .serve k => by
    intro q hq
    have h1 := h q hq
    show (x >>= fun i => Body.run x (k i)) (q.link K) = Res.link K ((y >>= fun i => evalBody y (k i)) q) ∧ QKeep P Q K ((y >>= fun i => evalBody y (k i)) q)
    cases hy : y q with
    | fault e =>
      rw [hy] at h1
      rw [Eff.bind_fault hy]
      exact ⟨Eff.bind_fault h1.1, trivial⟩
    | threw q' =>
      rw [hy] at h1
      rw [Eff.bind_threw hy]
      exact ⟨Eff.bind_threw h1.1, h1.2⟩
    | ret i q' =>
      rw [hy] at h1
      rw [Eff.bind_ret hy, Eff.bind_ret h1.1]
      exact body_sim h (k i) q' h1.2
  | .attempt k => by
    intro q hq
    have h1 := h q hq
    unfold Body.run evalBody
    cases hy : y q with
    | fault e =>
      rw [hy] at h1
      rw [h1.1]
      exact ⟨rfl, trivial⟩
    | threw q' =>
      rw [hy] at h1
      rw [h1.1]
      exact body_sim h (k none) q' h1.2
    | ret i q' =>
      rw [hy] at h1
      rw [h1.1]
      exact body_sim h (k (some i)) q' h1.2

/-- The results of a body. -/
theorem returns_eval {p : Option Val → Prop} {y : Eff (Queue σ) Nat} : ∀ (b : Body σ), BodyReturns p b → ∀ {q : Queue σ} {r : Option Val} {q' : Queue σ}, evalBody y b q = .ret r q' → p r
  | .done r, hb, q, r', q', h => by injection h with h _; subst h; exact hb
  | .act z k, hb, q, r', q', h => by
    unfold evalBody at h
    cases hz : z q.world with
    | fault e => rw [hz] at h; cases h
    | threw w => rw [hz] at h; cases h
    | ret r w => rw [hz] at h; exact returns_eval (k r) (hb _ _ _ hz) h
  | .serve k, hb, q, r', q', h => by
    obtain ⟨i, q1, _, h⟩ := Eff.bind_eq_ret (x := y) (f := fun i => evalBody y (k i)) h
    exact returns_eval (k i) (hb i) h
  | .attempt k, hb, q, r', q', h => by
    unfold evalBody at h
    cases hy : y q with
    | fault e => rw [hy] at h; cases h
    | threw q1 => rw [hy] at h; exact returns_eval (k none) (hb _) h
    | ret i q1 => rw [hy] at h; exact returns_eval (k (some i)) (hb _) h

theorem resultBytes_append (K : Keyring) : ∀ (xs ys : List (Nat × Option Val)), resultBytes K (xs ++ ys) = resultBytes K xs ++ resultBytes K ys
  | [], ys => rfl
  | (i, r) :: xs, ys => by
    show _ ++ resultBytes K (xs ++ ys) = (_ ++ resultBytes K xs) ++ resultBytes K ys
    rw [resultBytes_append K xs ys, List.append_assoc]

/-- Streams without requests. -/
theorem nested_empty (hQ : Q.Valid) (hK : KeyringOk K) (hs : Supported Q K.e K.s) (fns : Nat → List Val → Eff (Link σ) (Option Val)) (down : List Byte) (w : σ) :
    (Dispatcher.make K f fns).run Q (Lens.whole _) Link.readFromMaster Link.writeToMaster ⟨[], down, w⟩ = .fault .starved := by
  have hi : 1 ≤ K.idxBytes := (idxBytes_pos hK.1).1
  rw [run_eq hQ (D := Dispatcher.make K f fns) hs hi]
  refine Eff.bind_fault ?_
  show getN Link.readFromMaster K.idxBytes _ = _
  obtain ⟨m, hm⟩ : ∃ m, K.idxBytes = m + 1 := ⟨K.idxBytes - 1, by omega⟩
  rw [hm]
  exact Eff.bind_fault rfl

/-- A request. -/
theorem nested_request (hQ : Q.Valid) (hK : KeyringOk K) (hs : Supported Q K.e K.s) {fns : Nat → List Val → Eff (Link σ) (Option Val)} {i : Nat} (hi : i < K.decls.length)
    {args : List Val} (hf : Val.FitsAll (Safe Q K.s) K.decls[i].sig.params args) (rest down : List Byte) (w : σ) :
    (Dispatcher.make K f fns).run Q (Lens.whole _) Link.readFromMaster Link.writeToMaster ⟨request K.e K.s K.idxBytes i K.decls[i].sig.params args ++ rest, down, w⟩ =
      (fns K.decls[i].name args >>= fun r => respond Q K.e K.s K.decls[i].sig.ret r Link.writeToMaster >>= fun _ => pure i) ⟨rest, down, w⟩ := by
  have h := run_request hQ (D := Dispatcher.make K f fns) hs (idxBytes_pos hK.1).1 (i := i)
    (by show i < K.size; rw [K.size_eq hK.1]; exact hi) (Nat.lt_trans hi (idxBytes_pos hK.1).2) (make_acts hi) (makeAction_holds f K.e K.s _)
    (hK.2 K.decls[i] (List.getElem_mem _)) (Lens.whole (Link σ)) (dest := Link.writeToMaster) hf (yields_up _ rest down w)
  rw [zoom_whole] at h
  exact h

/-- The dispatcher and the queue. -/
theorem nested_sim (hQ : Q.Valid) (hK : KeyringOk K) (hs : Supported Q K.e K.s)
    (ht : ∀ d ∈ K.decls, ∀ args, Val.FitsAll (Safe Q K.s) d.sig.params args → BodyReturns (fun r => RetOk P K.s d.sig.ret r ∧ RetOk Q K.s d.sig.ret r) (bodies d.name args)) :
    ∀ n, QSim P Q K (serveNested Q K f bodies n) (nextCall K bodies n)
  | 0 => by
    rintro ⟨calls, results, w⟩ ⟨hc, hr⟩
    refine ⟨?_, trivial⟩
    cases calls with
    | nil => exact nested_empty hQ hK hs _ _ _
    | cons c calls =>
      obtain ⟨i, args⟩ := c
      obtain ⟨d, hd, hf⟩ := hc (i, args) (List.mem_cons_self ..)
      obtain ⟨hi, rfl⟩ := List.getElem?_eq_some_iff.mp hd
      show serveNested Q K f bodies 0 ⟨(match K.decls[i]? with | some d => request K.e K.s K.idxBytes i d.sig.params args | none => []) ++ callBytes K calls, _, w⟩ = _
      dsimp only at hd
      rw [hd]
      unfold serveNested
      rw [nested_request hQ hK hs hi hf]
      rfl
  | n + 1 => by
    rintro ⟨calls, results, w⟩ ⟨hc, hr⟩
    cases calls with
    | nil => exact ⟨nested_empty hQ hK hs _ _ _, trivial⟩
    | cons c calls =>
      obtain ⟨i, args⟩ := c
      obtain ⟨d, hd, hf⟩ := hc (i, args) (List.mem_cons_self ..)
      dsimp only at hd hf
      obtain ⟨hi, rfl⟩ := List.getElem?_eq_some_iff.mp hd
      have hb := body_sim (nested_sim hQ hK hs ht n) (bodies K.decls[i].name args) ⟨calls, results, w⟩ ⟨fun c hc' => hc c (List.mem_cons_of_mem _ hc'), hr⟩
      have hrun : serveNested Q K f bodies (n + 1) (Queue.link K ⟨(i, args) :: calls, results, w⟩) =
          ((bodies K.decls[i].name args).run (serveNested Q K f bodies n) >>= fun r => respond Q K.e K.s K.decls[i].sig.ret r Link.writeToMaster >>= fun _ => pure i)
            (Queue.link K ⟨calls, results, w⟩) := by
        show serveNested Q K f bodies (n + 1) ⟨(match K.decls[i]? with | some d => request K.e K.s K.idxBytes i d.sig.params args | none => []) ++ callBytes K calls, _, w⟩ = _
        rw [hd]
        unfold serveNested
        rw [nested_request hQ hK hs hi hf]
        rfl
      rw [hrun]
      unfold nextCall
      dsimp only
      rw [hd]
      dsimp only
      cases he : evalBody (nextCall K bodies n) (bodies K.decls[i].name args) ⟨calls, results, w⟩ with
      | fault e => rw [he] at hb; exact ⟨Eff.bind_fault hb.1, trivial⟩
      | threw q' => rw [he] at hb; exact ⟨Eff.bind_threw hb.1, hb.2⟩
      | ret r q' =>
        rw [he] at hb
        obtain ⟨hb1, hb2, hb3⟩ := hb
        have hret := returns_eval _ (ht _ (List.getElem_mem hi) args hf) he
        refine ⟨?_, hb2, ?_⟩
        · rw [Eff.bind_ret hb1, respond_eq hQ hs (hK.2 _ (List.getElem_mem hi)).2.2 hret.2, Eff.bind_ret (putAll_accepts (accepts_down _ _ _ _))]
          show Res.ret i (Link.mk _ _ _) = Res.ret i (Link.mk _ _ _)
          rw [resultBytes_append]
          show _ = Res.ret i (Link.mk _ (_ ++ ((match K.decls[i]? with | some d => response K.e K.s d.sig.ret r | none => []) ++ [])) _)
          rw [hd, List.append_nil]
          rfl
        · intro c hc'
          rcases List.mem_append.1 hc' with hc' | hc'
          · exact hb3 c hc'
          · rw [List.mem_singleton] at hc'
            subst hc'
            exact ⟨_, hd, hret.1⟩

end Upd
