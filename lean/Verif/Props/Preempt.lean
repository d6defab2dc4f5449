import Verif.Lemmas.Preempt

/-!
# C92: `write_to` while a handler receives
-/

namespace Upd

open Spec

variable {σ : Type}

/-- `write_to(tx)`, called in the state `st` where `out` remains to be sent and interrupted as `es` says, relays the responses: the bytes given to `tx` are
those of `out` and of the responses of the requests completed meanwhile, in order; except for the byte being sent, what has not been given to `tx` remains
in the dispatcher. -/
def Relays (P : Platform) (C : Compiled) (tx : Byte → Eff σ Unit) (es : List WEvent) (st : BState σ) (out : List Byte) : Prop :=
  ∃ os pc b w pend, happen P C tx es (.loop, st) = .ret os (pc, (b, w)) ∧ Unread b pend ∧ sent os <+: out ++ responses os ∧
    (Between pc → sent os ++ pend = out ++ responses os)

/-- C92. On a double buffered dispatcher, `write_to` may be interrupted at any points by a handler which puts bytes, provided that a request is completed
only when `is_loaded()` is false: no byte of a response is lost, repeated or altered. -/
def C92_Statement : Prop :=
  ∀ (σ : Type) (P : Platform) (K : Keyring) (f : Features) (defs : Nat → List Val → Eff σ (Option Val)) (C : Compiled) (tx : Byte → Eff σ Unit)
    (es : List WEvent) (st : BState σ) (out : List Byte),
    Setting P K f defs → ResponsesFit K false → AllDecodeSafe P K → (∀ d ∈ K.decls, ∀ args w, ∃ r w', defs d.name args w = .ret r w') →
    (∀ x w, ∃ w', tx x w = .ret () w') → Reachable P K f defs false st → Unread st.1 out → Obeys WhenEmpty P C tx es (.loop, st) →
    Relays P C tx es st out

/-- A putter which has no effect. -/
def mute : Byte → Eff Unit Unit := fun _ w => .ret () w

/-- `write_to` is interrupted after the new value of `m_obuf_next` has been stored: the handler completes `echo(7)`. -/
def overwriting : List WEvent := [.main, .main, .main, .main, .main, .main, .put 7#8, .main, .main]

/-- C92 does not hold if the compiler stores the new value of `m_obuf_next` before it reads the last byte: in between `is_loaded()` is false, a request is
completed and its response takes the place of the byte. -/
theorem C92_store_first (C : Compiled) (hC : C.storeFirst = true) :
    Obeys Answering pc C mute overwriting (.loop, (echoing, ())) ∧ ¬ Relays pc C mute overwriting (echoing, ()) [5#8] := by
  obtain ⟨c1, c2, c3⟩ := C
  cases hC
  have hput : Buf.put pc 7#8 ({ echoing with obufNext := 1 }, ()) = .ret .resolved (echoed7, ()) := rfl
  have s1 : WPc.loop.step ⟨c1, c2, true⟩ mute (echoing, ()) = .ret (.loopHalf (echoing.half c1)) (echoing, ()) := rfl
  have s2 : (WPc.loopHalf (echoing.half c1)).step ⟨c1, c2, true⟩ mute (echoing, ()) = .ret .test (echoing, ()) := by cases c1 <;> rfl
  have s3 : WPc.test.step ⟨c1, c2, true⟩ mute (echoing, ()) = .ret (.testHalf (echoing.half c2)) (echoing, ()) := rfl
  have s4 : (WPc.testHalf (echoing.half c2)).step ⟨c1, c2, true⟩ mute (echoing, ()) = .ret .pop (echoing, ()) := by cases c2 <;> rfl
  have s5 : WPc.pop.step ⟨c1, c2, true⟩ mute (echoing, ()) = .ret (.popped 0) (echoing, ()) := rfl
  have s6 : (WPc.popped 0).step ⟨c1, c2, true⟩ mute (echoing, ()) = .ret (.stored 0) ({ echoing with obufNext := 1 }, ()) := rfl
  have s7 : (WPc.stored 0).step ⟨c1, c2, true⟩ mute (echoed7, ()) = .ret (.send 7#8) (echoed7, ()) := rfl
  have s8 : (WPc.send 7#8).step ⟨c1, c2, true⟩ mute (echoed7, ()) = .ret .loop (echoed7, ()) := rfl
  have hleft := unread_left echoed7_unread
  constructor
  · exact obeys_main s1 (obeys_main s2 (obeys_main s3 (obeys_main s4 (obeys_main s5 (obeys_main s6 (obeys_cons (put_run hput)
      (fun resp h => by rw [hleft] at h; cases h; exact ⟨rfl, by decide⟩) (obeys_main s7 (obeys_main s8 trivial))))))))
  · rintro ⟨os, pc', b, w, pend, h1, _, h2, _⟩
    have h3 : happen pc ⟨c1, c2, true⟩ mute overwriting (.loop, (echoing, ())) = _ :=
      happen_cons (main_run s1) (happen_cons (main_run s2) (happen_cons (main_run s3) (happen_cons (main_run s4) (happen_cons (main_run s5)
        (happen_cons (main_run s6) (happen_cons (put_run hput) (happen_cons (main_run s7) (happen_cons (main_run s8) rfl))))))))
    rw [h3, hleft] at h1
    cases h1
    have h4 : [7#8] <+: [5#8] ++ [7#8] := h2
    revert h4
    decide

/-- `write_to` is interrupted in the middle of the test of the loop, nothing remaining to be sent: the handler completes `reset()`. -/
def tearing : List WEvent := [.main, .put 1#8, .main, .main, .main, .main]

/-- C92 does not hold, whatever the compiler does: if a request without response is completed in the middle of the test of the loop when nothing remains to
be sent, `m_obuf_next` and `m_obuf_bottom` are reset in between the two loads, and `write_to` sends a byte which nobody has produced. -/
theorem C92_torn_test (C : Compiled) :
    Obeys WhenEmpty pc C mute tearing (.loop, (drained, ())) ∧ ¬ Relays pc C mute tearing (drained, ()) [] := by
  obtain ⟨c1, c2, c3⟩ := C
  have hput : Buf.put pc 1#8 (drained, ()) = .ret .resolved ({ drained with ibuf := [1#8, 5#8], obufNext := 0, obufBottom := 0 }, ()) := rfl
  generalize hd : ({ drained with ibuf := [1#8, 5#8], obufNext := 0, obufBottom := 0 } : Buf Unit) = d at hput
  have d1 : d.obufNext = 0 := by rw [← hd]
  have d2 : d.obufBottom = 0 := by rw [← hd]
  have s1 : WPc.loop.step ⟨c1, c2, c3⟩ mute (drained, ()) = .ret (.loopHalf 1) (drained, ()) := by cases c1 <;> rfl
  have s2 : (WPc.loopHalf 1).step ⟨c1, c2, c3⟩ mute (d, ()) = .ret .test (d, ()) := by
    cases c1 <;> simp [WPc.step, Buf.differs, d1, d2]
  have s3 : WPc.test.step ⟨c1, c2, c3⟩ mute (d, ()) = .ret (.testHalf 0) (d, ()) := by
    cases c2 <;> simp [WPc.step, Buf.half, d1, d2]
  have s4 : (WPc.testHalf 0).step ⟨c1, c2, c3⟩ mute (d, ()) = .ret (.send 0#8) (d, ()) := by
    cases c2 <;> simp [WPc.step, Buf.differs, d1, d2]
  have s5 : (WPc.send 0#8).step ⟨c1, c2, c3⟩ mute (d, ()) = .ret .loop (d, ()) := rfl
  have hleft : d.left = [] := by simp [Buf.left, d1, d2]
  constructor
  · exact obeys_main s1 (obeys_cons (put_run hput) (fun resp h => rfl) (obeys_main s2 (obeys_main s3 (obeys_main s4 (obeys_main s5 trivial)))))
  · rintro ⟨os, pc', b, w, pend, h1, _, h2, _⟩
    have h3 : happen pc ⟨c1, c2, c3⟩ mute tearing (.loop, (drained, ())) = _ :=
      happen_cons (main_run s1) (happen_cons (put_run hput) (happen_cons (main_run s2) (happen_cons (main_run s3) (happen_cons (main_run s4)
        (happen_cons (main_run s5) rfl)))))
    rw [h3, hleft] at h1
    cases h1
    revert h2
    decide

theorem C92_full_statement_is_false : ¬ C92_Statement := by
  intro h
  obtain ⟨h1, h2⟩ := C92_torn_test ⟨true, true, false⟩
  exact h2 (h Unit pc echoRing .any echoDefs _ mute tearing (drained, ()) [] (echo_setting .any) echo_fit echo_decode
    (fun _ _ _ _ => ⟨_, _, rfl⟩) (fun _ _ => ⟨_, rfl⟩) drained_reachable ⟨rfl, by decide, rfl⟩ h1)

section
variable {P : Platform} {K : Keyring} {f : Features} {defs : Nat → List Val → Eff σ (Option Val)}

theorem relays_of_owes {C : Compiled} {tx : Byte → Eff σ Unit} {es : List WEvent} {st : BState σ} {out A : List Byte} {os : List WObs} {pc : WPc}
    {b : Buf σ} {w : σ} (h1 : happen P C tx es (.loop, st) = .ret os (pc, (b, w))) (h2 : out ++ responses os = sent os ++ A) (h3 : Owes C A pc b) :
    Relays P C tx es st out := by
  obtain ⟨pend, hu, h3⟩ := h3
  refine ⟨os, pc, b, w, pend, h1, hu, ⟨A, h2.symm⟩, fun hb => ?_⟩
  cases pc <;> first | exact hb.elim | skip
  · simp only at h3; rw [h2, h3]
  · rw [h2, h3.1]
  · simp only at h3; rw [h2, h3]

/-- C92, partial: if the byte is read before the new value of `m_obuf_next` is stored, and the requests completed in the meantime (always when `is_loaded()`
is false) have responses which are not empty. Missing: the other order (`C92_store_first`), and requests without response (`C92_torn_test`). -/
theorem C92_relays_partial (h : Setting P K f defs) (ho : ResponsesFit K false) (hs : AllDecodeSafe P K)
    (hd : ∀ d ∈ K.decls, ∀ args w, ∃ r w', defs d.name args w = .ret r w') {C : Compiled} (hC : C.storeFirst = false) {tx : Byte → Eff σ Unit}
    (htx : ∀ x w, ∃ w', tx x w = .ret () w') {st : BState σ} (hr : Reachable P K f defs false st) {out : List Byte} (hu : Unread st.1 out)
    {es : List WEvent} (hob : Obeys Answering P C tx es (.loop, st)) : Relays P C tx es st out := by
  obtain ⟨os, pc, b, w, A, h1, _, h2, h3⟩ := happen_owes h ho hs hd htx (rule := Answering)
    (fun b resp hb => ⟨hb.1, hC, hb.2⟩) hr (A := out) (pc := .loop) ⟨out, hu, rfl⟩ hob
  exact relays_of_owes h1 h2 h3

/-- C92, partial: whatever the compiler does, if the handler completes no request, `write_to` relays what remained to be sent; and the handler gets the same
statuses and leaves the same dispatcher as if `write_to` had not been called (apart from the position in the output buffer). -/
theorem C92_receives_partial (h : Setting P K f defs) (ho : ResponsesFit K false) (hs : AllDecodeSafe P K)
    (hd : ∀ d ∈ K.decls, ∀ args w, ∃ r w', defs d.name args w = .ret r w') {C : Compiled} {tx : Byte → Eff σ Unit}
    (htx : ∀ x w, ∃ w', tx x w = .ret () w') {st : BState σ} (hr : Reachable P K f defs false st) {out : List Byte} (hu : Unread st.1 out)
    {es : List WEvent} (hob : Obeys Nothing P C tx es (.loop, st)) :
    Relays P C tx es st out ∧ ∃ os pc b w, happen P C tx es (.loop, st) = .ret os (pc, (b, w)) ∧ responses os = [] ∧
      puts P (received es) st = .ret (statuses os) ({ b with obufNext := st.1.obufNext }, st.2) := by
  obtain ⟨os, pc, b, w, A, h1, _, h2, h3⟩ := happen_owes h ho hs hd htx (rule := Nothing)
    (fun b resp hb => hb.elim) hr (A := out) (pc := .loop) ⟨out, hu, rfl⟩ hob
  refine ⟨relays_of_owes h1 h2 h3, os, pc, b, w, h1, ?_, happen_receives h ho hs hd htx st.1.obufNext st.2 hr (A := out) (pc := .loop) ⟨out, hu, rfl⟩ hob h1⟩
  exact responses_nothing hob h1

/-- Whatever has happened under the rules of `C92_relays_partial`, `write_to` returns if it is left alone long enough. -/
theorem C92_ends (h : Setting P K f defs) (ho : ResponsesFit K false) (hs : AllDecodeSafe P K)
    (hd : ∀ d ∈ K.decls, ∀ args w, ∃ r w', defs d.name args w = .ret r w') {C : Compiled} (hC : C.storeFirst = false) {tx : Byte → Eff σ Unit}
    (htx : ∀ x w, ∃ w', tx x w = .ret () w') {st : BState σ} (hr : Reachable P K f defs false st) {out : List Byte} (hu : Unread st.1 out)
    {es : List WEvent} (hob : Obeys Answering P C tx es (.loop, st)) :
    ∃ n os b w, happen P C tx (es ++ List.replicate n .main) (.loop, st) = .ret os (.done, (b, w)) := by
  obtain ⟨os, pc, b, w, A, h1, hr1, h2, h3⟩ := happen_owes h ho hs hd htx (rule := Answering)
    (fun b resp hb => ⟨hb.1, hC, hb.2⟩) hr (A := out) (pc := .loop) ⟨out, hu, rfl⟩ hob
  obtain ⟨n, os', b', w', h4⟩ := happen_ends htx _ (Nat.le_refl _) hr1 h3
  exact ⟨n, _, b', w', happen_append h1 h4⟩

/-- When nothing interrupts it, `write_to` cut into its accesses is `write_to`: it sends what remained to be sent, and leaves the same dispatcher. -/
theorem C92_uninterrupted {C : Compiled} {tx : Byte → Eff σ Unit} : ∀ {out : List Byte} {b : Buf σ} {w w' : σ}, Unread b out → Accepts tx w out w' →
    ∃ n os b', happen P C tx (List.replicate n .main) (.loop, (b, w)) = .ret os (.done, (b', w')) ∧ sent os = out ∧
      Buf.writeTo tx (b, w) = .ret () (b', w')
  | [], b, w, w', hu, ha => by
    have hw := writeTo_accepts hu ha
    cases ha
    have hn : ¬ b.obufNext ≠ b.obufBottom := fun hne => unread_ne hu hne rfl
    have s2 : (WPc.loopHalf (b.half C.loopNextFirst)).step C tx (b, w) = .ret .done (b, w) := by
      show Res.ret (if b.differs C.loopNextFirst _ = true then _ else _) (b, w) = _
      rw [if_neg (fun hd => hn ((differs_half _ _).mp hd))]
    have hb : ({ b with obufNext := b.obufBottom } : Buf σ) = b := by
      have : b.obufBottom = b.obufNext := by omega
      obtain ⟨d, sh, sm, ib, ob, il, lc, inx, onx, obt⟩ := b
      simp only at this
      subst this
      rfl
    rw [hb] at hw
    exact ⟨2, [.silent, .silent], b, happen_cons (main_run (pc := .loop) rfl) (happen_cons (main_run s2) rfl), rfl, hw⟩
  | x :: out, b, w, w', hu, ha => by
    have hw := writeTo_accepts hu ha
    cases ha with
    | cons h1 h2 =>
      obtain ⟨os, hos, h3⟩ := happen_turn (P := P) (C := C) hu h1
      obtain ⟨b', hg, hu', _, rfl⟩ := get_cons hu w
      obtain ⟨n, os', b2, h4, h5, h6⟩ := C92_uninterrupted hu' h2
      rw [writeTo_accepts hu' h2] at h6
      cases h6
      refine ⟨8 + n, os ++ os', _, ?_, by rw [sent_append, hos, h5]; rfl, hw⟩
      rw [replicate_add']
      exact happen_append h3 h4

/-- What is observed when the handler puts the last byte of a request: the response of the function, whatever `write_to` is doing. -/
theorem C92_response (h : Setting P K f defs) {b : Buf σ} {w w' : σ} (hr : Reachable P K f defs false (b, w)) {i : Nat}
    (hi : i < K.decls.length) {args : List Val} (hf : Val.FitsAll (Safe P K.s) K.decls[i].sig.params args)
    (ho : retSize K.decls[i].sig.ret ≤ outRoom K false) {l : List Byte} {x : Byte}
    (hl : request K.e K.s K.idxBytes i K.decls[i].sig.params args = l ++ [x]) (hp : Pending b l) {r : Option Val}
    (hd : defs K.decls[i].name args w = .ret r w') (C : Compiled) (tx : Byte → Eff σ Unit) (pc : WPc) :
    ∃ b', (WEvent.put x).run P C tx (pc, (b, w)) = .ret (.status .resolved (response K.e K.s K.decls[i].sig.ret r)) (pc, (b', w')) := by
  have h1 := C39_resolved h hr hi hf ho hl hp
  rw [hd] at h1
  obtain ⟨b', h2, _, _, h3⟩ := h1
  refine ⟨b', ?_⟩
  rw [put_run h2, unread_left h3]

end

/-! ## Examples -/

/-- The output has been drained and the index of `echo` has been put. -/
def redrained : Buf Unit := { echoing with obufNext := 1 }

theorem redrained_reachable : Reachable pc echoRing .any echoDefs false (redrained, ()) :=
  (reachable_next echoing_reachable echoing_unread).1

/-- In the middle of the test of the loop, `echo(7)` is completed; its response is sent, or will be sent by the next `write_to`. -/
example (C : Compiled) (hC : C.storeFirst = false) : Relays pc C mute [.main, .put 7#8, .main] (redrained, ()) [] := by
  refine C92_relays_partial (echo_setting .any) echo_fit echo_decode (fun _ _ _ _ => ⟨_, _, rfl⟩) hC (fun _ _ => ⟨_, rfl⟩) redrained_reachable
    ⟨rfl, by decide, rfl⟩ ?_
  have hput : Buf.put pc 7#8 (redrained, ()) = .ret .resolved (echoed7, ()) := rfl
  refine obeys_main (pc := .loop) rfl (obeys_cons (put_run hput) (fun resp h => ?_) (obeys_main (pc := .loopHalf _) rfl trivial))
  rw [unread_left echoed7_unread] at h
  cases h
  exact ⟨rfl, by decide⟩

/-- The index of `echo` is received while the response of `echo(5)` is being sent. -/
example (C : Compiled) : Relays pc C mute [.main, .put 0#8, .main] (echoed, ()) [5#8] := by
  refine (C92_receives_partial (echo_setting .any) echo_fit echo_decode (fun _ _ _ _ => ⟨_, _, rfl⟩) (fun _ _ => ⟨_, rfl⟩) echoed_reachable
    ⟨rfl, by decide, rfl⟩ ?_).1
  have hput : Buf.put pc 0#8 (echoed, ()) = .ret .loading (echoing, ()) := rfl
  exact obeys_main (pc := .loop) rfl (obeys_cons (put_run hput) (fun resp h => by cases h) (obeys_main (pc := .loopHalf _) rfl trivial))

/-- Without interruption, the response of `echo(5)` is sent. -/
example (C : Compiled) : ∃ n os b', happen pc C mute (List.replicate n .main) (.loop, (echoed, ())) = .ret os (.done, (b', ())) ∧ sent os = [5#8] ∧
    Buf.writeTo mute (echoed, ()) = .ret () (b', ()) :=
  C92_uninterrupted (out := [5#8]) ⟨rfl, by decide, rfl⟩ (.cons rfl (.nil _))

example (C : Compiled) (hC : C.storeFirst = false) :
    ∃ n os b w, happen pc C mute ([] ++ List.replicate n .main) (.loop, (echoed, ())) = .ret os (.done, (b, w)) :=
  C92_ends (echo_setting .any) echo_fit echo_decode (fun _ _ _ _ => ⟨_, _, rfl⟩) hC (fun _ _ => ⟨_, rfl⟩) echoed_reachable (out := [5#8])
    ⟨rfl, by decide, rfl⟩ trivial

/-- `echo(7)` is completed while a byte is being sent. -/
example (C : Compiled) : ∃ b', (WEvent.put 7#8).run pc C mute (.send 5#8, (redrained, ())) = .ret (.status .resolved [7#8]) (.send 5#8, (b', ())) :=
  C92_response (echo_setting .any) redrained_reachable (i := 0) (by decide) (args := [.int 7])
    (by simp [echoRing, Val.FitsAll, Val.Fits, Safe, Representable, InRange]) (by decide) (l := [0#8]) rfl ⟨rfl, rfl⟩ rfl C mute _

end Upd
