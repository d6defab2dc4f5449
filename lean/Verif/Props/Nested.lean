import Verif.Lemmas.Nested
import Verif.Props.Session

/-!
# Callbacks which run the unbuffered dispatcher that runs them

C100: an unbuffered dispatcher is re-entrant. Callbacks may process further requests of the stream; the bytes correspond to calls, nested as the callbacks say, and to results.
-/

namespace Upd
open Spec TypeList

variable {σ : Type} {P Q : Platform} {K : Keyring} {f : Features} {bodies : Nat → List Val → Body σ}

/-- C100. A device whose main program `main`, and whose callbacks, run the dispatcher at will, with the requests of any calls in its stream: what happens is what happens if the calls are made
directly, each one of them when the dispatcher is run. The results are sent in the order in which the calls are completed: those of the calls processed by a callback come before its own. It is so
too if exceptions are thrown, caught or not; a call which throws sends nothing. The results are those which the caller (platform `P`) can read. -/
theorem C100_nested (hQ : Q.Valid) (hK : KeyringOk K) (hs : Supported Q K.e K.s)
    (ht : ∀ d ∈ K.decls, ∀ args, Val.FitsAll (Safe Q K.s) d.sig.params args → BodyReturns (fun r => RetOk P K.s d.sig.ret r ∧ RetOk Q K.s d.sig.ret r) (bodies d.name args))
    (n : Nat) (main : Body σ) {q : Queue σ} (hq : QueueOk Q K q) (hr : ResultsOk P K q.results) :
    main.run (serveNested Q K f bodies n) (q.link K) = Res.link K (evalBody (nextCall K bodies n) main q) ∧
      ∀ q', (∃ r, evalBody (nextCall K bodies n) main q = .ret r q') ∨ evalBody (nextCall K bodies n) main q = .threw q' →
        QueueOk Q K q' ∧ ResultsOk P K q'.results := by
  have h := body_sim (nested_sim (f := f) hQ hK hs ht n) main q ⟨hq, hr⟩
  refine ⟨h.1, ?_⟩
  intro q' h'
  have h2 := h.2
  rcases h' with ⟨r, h'⟩ | h'
  · rw [h'] at h2; exact h2
  · rw [h'] at h2; exact h2

/-- C100. The requests of calls are those which a caller of another platform writes with the keys. -/
theorem C100_send (hP : P.Valid) (hK : KeyringOk K) (hs : Supported P K.e K.s) (w : σ) : ∀ (calls : List (Nat × List Val)) (up down : List Byte),
    (∀ c ∈ calls, ∃ d, K.decls[c.1]? = some d ∧ Val.FitsAll (Safe P K.s) d.sig.params c.2) →
    sendCalls P K calls ⟨up, down, w⟩ = .ret () ⟨up ++ callBytes K calls, down, w⟩
  | [], up, down, _ => by rw [callBytes, List.append_nil]; rfl
  | (i, args) :: calls, up, down, h => by
    obtain ⟨d, hd, hf⟩ := h (i, args) (List.mem_cons_self ..)
    dsimp only at hd hf
    obtain ⟨hi, rfl⟩ := List.getElem?_eq_some_iff.mp hd
    have h1 := send_request hP hK hs hi hf (L := Lens.whole (Link σ)) (t := ⟨up, down, w⟩) rfl
    rw [zoom_whole] at h1
    have ih := C100_send hP hK hs w calls (up ++ request K.e K.s K.idxBytes i K.decls[i].sig.params args) down
      (fun c hc => h c (List.mem_cons_of_mem _ hc))
    unfold sendCalls callBytes
    rw [K.keyAt_eq hK.1 hi, hd]
    dsimp only
    rw [Eff.bind_ret h1, ← List.append_assoc]
    exact ih

/-- C100. A caller which knows in which order the calls have been completed reads their results. -/
theorem C100_receive (hP : P.Valid) (hK : KeyringOk K) (hs : Supported P K.e K.s) (w : σ) (up : List Byte) : ∀ (results : List (Nat × Option Val)),
    ResultsOk P K results → receiveResults P K (results.map (·.1)) ⟨up, resultBytes K results, w⟩ = .ret (results.map (·.2)) ⟨up, [], w⟩
  | [], _ => rfl
  | (i, r) :: results, h => by
    obtain ⟨d, hd, hr⟩ := h (i, r) (List.mem_cons_self ..)
    dsimp only at hd hr
    obtain ⟨hi, rfl⟩ := List.getElem?_eq_some_iff.mp hd
    have h1 := receive_response hP hK hs hi hr (L := Lens.whole (Link σ)) (t := ⟨up, response K.e K.s K.decls[i].sig.ret r ++ resultBytes K results, w⟩)
      (up := up) (down := resultBytes K results) (w := w) rfl
    rw [zoom_whole] at h1
    have ih := C100_receive hP hK hs w up results (fun c hc => h c (List.mem_cons_of_mem _ hc))
    show receiveResults P K (i :: results.map (·.1)) ⟨up, (match K.decls[i]? with | some d => response K.e K.s d.sig.ret r | none => []) ++ resultBytes K results, w⟩ = _
    rw [hd]
    unfold receiveResults
    rw [K.keyAt_eq hK.1 hi]
    dsimp only
    rw [Eff.bind_ret h1]
    exact (Eff.bind_ret ih).trans rfl

/-! Example: `batch(n)` processes the next `n` requests and returns how many of them have not thrown. -/

def batchRing : Keyring := ⟨.big, .twosComplement, [⟨1, [.uint 1], some (.uint 1)⟩, ⟨2, [.uint 1], some (.uint 2)⟩, ⟨3, [], none⟩]⟩

def batchBody : Nat → Nat → Body Nat
  | 0, c => .done (some (.int c))
  | n + 1, c => .attempt fun
    | some _ => batchBody n (c + 1)
    | none => batchBody n c

def batchBodies : Nat → List Val → Body Nat
  | 1, [.int n] => batchBody (n.toNat % 256) 0
  | 2, [.int x] => .act (fun w => .ret none (w + x.toNat)) fun _ => .act (fun w => .ret (some (.int ((w % 256 : Nat) : Int))) w) fun
    | some (.int z) => .done (some (.int (z % 256)))
    | _ => .done (some (.int 0))
  | 3, _ => .act (fun w => .threw w) fun _ => .done none
  | 2, _ => .done (some (.int 0))
  | 1, _ => .done (some (.int 0))
  | _, _ => .done none

theorem batchBody_returns {p : Option Val → Prop} : ∀ (n c m : Nat), n + c < m → (∀ k : Nat, k < m → p (some (.int k))) → BodyReturns p (batchBody n c)
  | 0, c, m, h, hp => hp c (by omega)
  | n + 1, c, m, h, hp => by
    intro i
    cases i with
    | none => exact batchBody_returns n c m (by omega) hp
    | some i => exact batchBody_returns n (c + 1) m (by omega) hp

theorem batchRing_ok : KeyringOk batchRing := by simp [KeyringOk, batchRing, SigOk, Ty.WFs, Ty.WF, PackedAll, Packed]

theorem batch_returns (P Q : Platform) : ∀ d ∈ batchRing.decls, ∀ args, Val.FitsAll (Safe Q batchRing.s) d.sig.params args →
    BodyReturns (fun r => RetOk P batchRing.s d.sig.ret r ∧ RetOk Q batchRing.s d.sig.ret r) (batchBodies d.name args) := by
  intro d hd args _
  simp only [batchRing, List.mem_cons, List.not_mem_nil, or_false] at hd
  rcases hd with rfl | rfl | rfl
  · have h0 : ∀ k : Nat, k < 256 → RetOk P .twosComplement (some (.uint 1)) (some (.int k)) ∧ RetOk Q .twosComplement (some (.uint 1)) (some (.int k)) := by
      intro k hk
      simp only [RetOk, Val.Fits]
      omega
    dsimp only
    unfold batchBodies
    split
    · exact batchBody_returns _ 0 256 (by omega) h0
    all_goals first
      | exact h0 0 (by omega)
      | simp_all
  · have h0 : ∀ z : Int, 0 ≤ z → z < 65536 → RetOk P .twosComplement (some (.uint 2)) (some (.int z)) ∧ RetOk Q .twosComplement (some (.uint 2)) (some (.int z)) := by
      intro z h1 h2
      simp only [RetOk, Val.Fits]
      omega
    dsimp only
    unfold batchBodies
    split
    · simp_all
    · intro w r w' _ w1 r1 w2 h
      injection h with h _
      subst h
      exact h0 _ (by omega) (by omega)
    all_goals first
      | exact h0 0 (by omega) (by omega)
      | simp_all
  · dsimp only
    unfold batchBodies
    split
    · simp_all
    · simp_all
    · intro w r w' h; cases h
    all_goals first
      | exact ⟨trivial, trivial⟩
      | simp_all

/-- `batch(3)` processes `add(5)`, a call which throws and `batch(1)`, which processes `add(7)`. -/
def batchCalls : List (Nat × List Val) := [(0, [.int 3]), (1, [.int 5]), (2, []), (0, [.int 1]), (1, [.int 7]), (1, [.int 9])]

theorem batchCalls_ok (P : Platform) : ∀ c ∈ batchCalls, ∃ d, batchRing.decls[c.1]? = some d ∧ Val.FitsAll (Safe P batchRing.s) d.sig.params c.2 := by
  simp [batchCalls, batchRing, Val.FitsAll, Val.Fits]

/-- The body of `batch`, when the next call returns. -/
theorem batchBody_next {y : Eff (Queue Nat) Nat} {n c i : Nat} {q q' : Queue Nat} (h : y q = .ret i q') :
    evalBody y (batchBody (n + 1) c) q = evalBody y (batchBody n (c + 1)) q' := by
  simp only [batchBody, evalBody]
  rw [h]

/-- The body of `batch`, when the next call throws. -/
theorem batchBody_threw {y : Eff (Queue Nat) Nat} {n c : Nat} {q q' : Queue Nat} (h : y q = .threw q') :
    evalBody y (batchBody (n + 1) c) q = evalBody y (batchBody n c) q' := by
  simp only [batchBody, evalBody]
  rw [h]

/-- `batch`, from what its body does. -/
theorem nextCall_batch {n m : Nat} {a : Int} {calls results w r q} (hm : a.toNat % 256 = m)
    (h : evalBody (nextCall batchRing batchBodies n) (batchBody m 0) ⟨calls, results, w⟩ = .ret r q) :
    nextCall batchRing batchBodies (n + 1) ⟨(0, [.int a]) :: calls, results, w⟩ = .ret 0 { q with results := q.results ++ [(0, r)] } := by
  have h0 : batchBodies 1 [.int a] = batchBody m 0 := by rw [← hm]; rfl
  have h1 : (batchRing.decls[0]?) = some ⟨1, [.uint 1], some (.uint 1)⟩ := rfl
  simp only [nextCall, h1, h0, h]

/-- A computer sends the requests to a microcontroller, which runs its dispatcher once, and reads the results. -/
example : (sendCalls pc batchRing batchCalls >>= fun _ => Body.run (serveNested avr batchRing .any batchBodies 3) (.serve fun _ => .done none) >>= fun _ =>
      receiveResults pc batchRing [1, 1, 0, 0]) ⟨[], [], 0⟩ =
    .ret [some (.int 5), some (.int 12), some (.int 1), some (.int 2)] ⟨callBytes batchRing [(1, [.int 9])], [], 12⟩ := by
  have h1 := C100_send pc_valid batchRing_ok (pc_supported _ _) 0 batchCalls [] [] (batchCalls_ok pc)
  have h2 := C100_nested (P := pc) (f := .any) avr_valid batchRing_ok (avr_supported _ _) (batch_returns pc avr) 3 (.serve fun _ => .done none)
    (q := ⟨batchCalls, [], 0⟩) (batchCalls_ok avr) (fun c hc => by cases hc)
  have h3 : evalBody (nextCall batchRing batchBodies 3) (.serve fun _ => .done none) ⟨batchCalls, [], 0⟩ =
      .ret none ⟨[(1, [.int 9])], [(1, some (.int 5)), (1, some (.int 12)), (0, some (.int 1)), (0, some (.int 2))], 12⟩ := by
    have a1 : nextCall batchRing batchBodies 1 ⟨[(1, [.int 7]), (1, [.int 9])], [(1, some (.int 5))], 5⟩ =
        .ret 1 ⟨[(1, [.int 9])], [(1, some (.int 5)), (1, some (.int 12))], 12⟩ := rfl
    have e1 := nextCall_batch (m := 1) (a := 1) rfl ((batchBody_next (c := 0) a1).trans (show _ = Res.ret (some (.int 1)) _ from rfl))
    have a2 : nextCall batchRing batchBodies 2 ⟨batchCalls.tail, [], 0⟩ = .ret 1 ⟨batchCalls.tail.tail, [(1, some (.int 5))], 5⟩ := rfl
    have a3 : nextCall batchRing batchBodies 2 ⟨batchCalls.tail.tail, [(1, some (.int 5))], 5⟩ =
      .threw ⟨batchCalls.tail.tail.tail, [(1, some (.int 5))], 5⟩ := rfl
    have e2 := nextCall_batch (m := 3) (a := 3) rfl ((batchBody_next (c := 0) a2).trans ((batchBody_threw a3).trans
      ((batchBody_next e1).trans (show _ = Res.ret (some (.int 2)) _ from rfl))))
    exact (Eff.bind_ret e2).trans rfl
  have h4 := (h2.2 _ (.inl ⟨_, h3⟩)).2
  rw [h3] at h2
  have h5 := C100_receive pc_valid batchRing_ok (pc_supported _ _) 12 (callBytes batchRing [(1, [.int 9])]) _ h4
  rw [Eff.bind_ret h1]
  exact (Eff.bind_ret h2.1).trans h5

end Upd
