import Verif.Lemmas.MachineExact

/-!
# C46 and C47, exactly

The full statements of C46 and C47 are false because of C43 and C07. The theorems of this file have no hypothesis on the bytes received, on the size of
the responses, nor on the types of the parameters.
-/

namespace Upd
open Spec

variable {σ : Type} {P : Platform} {K : Keyring} {f : Features} {defs : Nat → List Val → Eff σ (Option Val)} {shared : Bool}

/-- C46, exactly: any calls of `put`, `get` and `is_loaded` on a double buffered dispatcher, in any reachable state, have the outcome (results, calls of
callbacks, exceptions, undefined behaviour) which they have on the machine with two queues, where the arguments of a request may be impossible to
decode and a response may be larger than the output buffer. -/
theorem C46_exact (h : Setting P K f defs) {b : Buf σ} {w : σ} (hr : Reachable P K f defs false (b, w)) {l out : List Byte}
    (hp : Pending b l) (hu : Unread b out) (ops : List Io) :
    SameOutcome (runAll (Io.run P) ops (b, w)) (runAll (Io.runExact P (protoOf K defs) (neededOutput K)) ops (⟨l, out⟩, w)) := by
  obtain ⟨hb, hlen, hsh, out', hm⟩ := reachable_pending h hr hp
  have := unread_unique hm.outp hu
  simp only at this
  subst this
  exact (runAll_exact h.valid hm hb hlen fun hs => by rw [hsh] at hs; cases hs).sameOutcome

/-- C46, for a single buffered dispatcher on which each response is drained before the next byte is put. -/
theorem C47_machine_exact (h : Setting P K f defs) {b : Buf σ} {w : σ} (hr : Reachable P K f defs true (b, w)) {l out : List Byte}
    (hp : Pending b l) (hu : Unread b out) (ops : List Io) (hd : Drained P ops (b, w)) :
    SameOutcome (runAll (Io.run P) ops (b, w)) (runAll (Io.runExact P (protoOf K defs) (neededInput K)) ops (⟨l, out⟩, w)) := by
  obtain ⟨hb, hlen, hsh, out', hm⟩ := reachable_pending h hr hp
  have := unread_unique hm.outp hu
  simp only at this
  subst this
  exact (runAll_exact h.valid hm hb hlen fun _ => hd).sameOutcome

/-- C47, exactly: a single buffered dispatcher on which each response is drained before the next byte is put has the same outcome as a double buffered
one with the same pending bytes and unread bytes, undefined behaviour included, unless a response overruns the output buffer of the latter. -/
theorem C47_exact (h : Setting P K f defs) {b1 b2 : Buf σ} {w : σ} (hr1 : Reachable P K f defs true (b1, w)) (hr2 : Reachable P K f defs false (b2, w))
    {l out : List Byte} (hp1 : Pending b1 l) (hp2 : Pending b2 l) (hu1 : Unread b1 out) (hu2 : Unread b2 out) (ops : List Io)
    (hd : Drained P ops (b1, w)) :
    SameOutcome (runAll (Io.run P) ops (b1, w)) (runAll (Io.run P) ops (b2, w)) ∨
      (runAll (Io.run P) ops (b2, w) = .fault .obufOverrun ∧ ∃ d ∈ K.decls, neededOutput K < retSize d.sig.ret) := by
  have h1 := C47_machine_exact h hr1 hp1 hu1 ops hd
  have h2 := C46_exact h hr2 hp2 hu2 ops
  rcases runExact_room (P := P) (p := protoOf K defs) (show neededOutput K ≤ neededInput K by unfold neededOutput neededInput; omega) (ops := ops)
    (st := (⟨l, out⟩, w)) with h3 | ⟨h3, cb, h4, h5⟩
  · rw [h3] at h1
    exact .inl (SameOutcome.trans' h1 h2)
  · rw [h3] at h2
    obtain ⟨d, hd, rfl⟩ := protoOf_mem h4
    refine .inr ⟨?_, d, hd, h5⟩
    revert h2
    cases runAll (Io.run P) ops (b2, w) with
    | fault f => intro h2; exact congrArg _ h2
    | threw t => exact fun h => h.elim
    | ret a t => exact fun h => h.elim

/-! ## Non-vacuity -/

/-- `uint16_t widen(uint8_t)`, whose response is larger than the output buffer of a double buffered dispatcher. -/
example (ops : List Io) : SameOutcome (runAll (Io.run pc) ops (fresh pc widenRing .any widenDefs 65535 false, ()))
    (runAll (Io.runExact pc (protoOf widenRing widenDefs) (neededOutput widenRing)) ops (⟨[], []⟩, ())) :=
  C46_exact (widen_setting .any) ⟨65535, (), .start⟩ (fresh_pending _ _ _ _ _ _) (fresh_rel (widen_setting .any) _ _).outp ops

/-- The calls go on up to the byte which completes a request. -/
example : runAll (Io.runExact pc (protoOf widenRing widenDefs) (neededOutput widenRing)) [.get, .put 0#8, .isLoaded] (⟨[], []⟩, ()) =
      .ret [.byte 0#8, .status .loading, .bool false] (⟨[0#8], []⟩, ()) ∧
    runAll (Io.runExact pc (protoOf widenRing widenDefs) (neededOutput widenRing)) [.get, .put 0#8, .isLoaded, .put 7#8] (⟨[], []⟩, ()) =
      .fault .obufOverrun := ⟨rfl, rfl⟩

/-- `void f(bool)`: a byte which represents no `bool` is undefined behaviour, which the machine shows. -/
example (ops : List Io) :
    SameOutcome (runAll (Io.run pcMacros) ops (fresh pcMacros boolRing .any (fun _ _ => (pure none : Eff Unit _)) 65535 false, ()))
      (runAll (Io.runExact pcMacros (protoOf boolRing fun _ _ => (pure none : Eff Unit _)) (neededOutput boolRing)) ops (⟨[], []⟩, ())) :=
  C46_exact (bool_setting .any) ⟨65535, (), .start⟩ (fresh_pending _ _ _ _ _ _) (fresh_rel (bool_setting .any) _ _).outp ops

example (ops : List Io) (hd : Drained pc ops (fresh pc widenRing .any widenDefs 65535 true, ())) :
    SameOutcome (runAll (Io.run pc) ops (fresh pc widenRing .any widenDefs 65535 true, ()))
        (runAll (Io.run pc) ops (fresh pc widenRing .any widenDefs 65535 false, ())) ∨
      runAll (Io.run pc) ops (fresh pc widenRing .any widenDefs 65535 false, ()) = .fault .obufOverrun :=
  (C47_exact (widen_setting .any) ⟨65535, (), .start⟩ ⟨65535, (), .start⟩ (fresh_pending _ _ _ _ _ _) (fresh_pending _ _ _ _ _ _)
    (fresh_rel (widen_setting .any) _ _).outp (fresh_rel (widen_setting .any) _ _).outp ops hd).imp_right And.left

/-- Both cases occur. -/
example : Drained pc [.put 0#8, .put 7#8] (fresh pc widenRing .any widenDefs 65535 true, ()) := widen_drained

example (ops : List Io) (hd : Drained pc ops (fresh pc widenRing .any widenDefs 65535 true, ())) :
    SameOutcome (runAll (Io.run pc) ops (fresh pc widenRing .any widenDefs 65535 true, ()))
      (runAll (Io.runExact pc (protoOf widenRing widenDefs) (neededInput widenRing)) ops (⟨[], []⟩, ())) :=
  C47_machine_exact (widen_setting .any) ⟨65535, (), .start⟩ (fresh_pending _ _ _ _ _ _) (fresh_rel (widen_setting .any) _ _).outp ops hd

end Upd
