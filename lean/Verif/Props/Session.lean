import Verif.Lemmas.Session

/-!
# Sessions

C61: calls made through the library, on another device, are equivalent to local calls. `P` is the platform of the caller and `Q` the one of
the callee. The link has the bytes in transit and the rest of the world, on which the functions act.
-/

namespace Upd
open Spec TypeList

variable {σ : Type} {P Q : Platform} {K : Keyring} {f : Features} {defs : Nat → List Val → Eff σ (Option Val)} {shared : Bool}

/-- C61, blocking mode, buffered dispatcher. Any sequence of remote calls has the outcome of the same sequence of local calls: same results,
same effects in the same order, same exception. No byte is left in transit, and the dispatcher is ready for the next request. -/
theorem C61_blocking (hP : P.Valid) (hs : Supported P K.e K.s) (hQ : Setting Q K f defs)
    (ht : ∀ d ∈ K.decls, WellTyped P K.s ⟨d.sig, defs d.name⟩) (ho : ResponsesFit K shared) {calls : List (Nat × List Val)}
    (hc : CallsOk P Q K calls) {b : Buf (Link σ)} {w : σ} (hr : Reachable Q K f (hosted defs) shared (b, ⟨[], [], w⟩)) (hp : Pending b []) :
    match localCalls defs calls w with
    | .ret rs w' => ∃ b', blockingCalls P K Link.beside (serveBuffered Q) calls (b, ⟨[], [], w⟩) = .ret rs (b', ⟨[], [], w'⟩) ∧
        Reachable Q K f (hosted defs) shared (b', ⟨[], [], w'⟩) ∧ Pending b' []
    | .threw w' => ∃ b', blockingCalls P K Link.beside (serveBuffered Q) calls (b, ⟨[], [], w⟩) = .threw (b', ⟨[], [], w'⟩)
    | .fault f => blockingCalls P K Link.beside (serveBuffered Q) calls (b, ⟨[], [], w⟩) = .fault f := by
  have h := blocking_server hP hQ.ring hs ht (buffered_server hQ ho) calls w (b, ⟨[], [], w⟩) hc ⟨hr, hp⟩ rfl
  cases hl : localCalls defs calls w with
  | fault e => rw [hl] at h; exact h
  | threw w' =>
    rw [hl] at h
    obtain ⟨⟨b', l⟩, h1, h2⟩ := h
    have h2 : l = _ := h2
    subst h2
    exact ⟨b', h1⟩
  | ret rs w' =>
    rw [hl] at h
    obtain ⟨⟨b', l⟩, h1, h2, h3⟩ := h
    have h3 : l = _ := h3
    subst h3
    exact ⟨b', h1, h2⟩

/-- C61, blocking mode, unbuffered dispatcher. -/
theorem C61_blocking_unbuffered (hP : P.Valid) (hQ : Q.Valid) (hK : KeyringOk K) (hsP : Supported P K.e K.s) (hsQ : Supported Q K.e K.s)
    (htP : ∀ d ∈ K.decls, WellTyped P K.s ⟨d.sig, defs d.name⟩) (htQ : ∀ d ∈ K.decls, WellTyped Q K.s ⟨d.sig, defs d.name⟩)
    {calls : List (Nat × List Val)} (hc : CallsOk P Q K calls) (f : Features) (w : σ) :
    blockingCalls P K (Lens.whole _) (serveUnbuffered Q (Dispatcher.make K f (hosted defs))) calls ⟨[], [], w⟩ =
      match localCalls defs calls w with
      | .ret rs w' => .ret rs ⟨[], [], w'⟩
      | .threw w' => .threw ⟨[], [], w'⟩
      | .fault f => .fault f := by
  have h := blocking_server hP hK hsP htP (unbuffered_server (f := f) hQ hK hsQ htQ) calls w ⟨[], [], w⟩ hc trivial rfl
  cases hl : localCalls defs calls w with
  | fault e => rw [hl] at h; exact h
  | threw w' =>
    rw [hl] at h
    obtain ⟨l, h1, h2⟩ := h
    have h2 : l = _ := h2
    subst h2
    exact h1
  | ret rs w' =>
    rw [hl] at h
    obtain ⟨l, h1, _, h3⟩ := h
    have h3 : l = _ := h3
    subst h3
    exact h1

/-- C61, all the requests being sent before the first one is served and all the responses being read at the end, buffered dispatcher. -/
theorem C61_pipelined (hP : P.Valid) (hs : Supported P K.e K.s) (hQ : Setting Q K f defs)
    (ht : ∀ d ∈ K.decls, WellTyped P K.s ⟨d.sig, defs d.name⟩) (ho : ResponsesFit K shared) {calls : List (Nat × List Val)}
    (hc : CallsOk P Q K calls) {b : Buf (Link σ)} {w : σ} (hr : Reachable Q K f (hosted defs) shared (b, ⟨[], [], w⟩)) (hp : Pending b []) :
    match localCalls defs calls w with
    | .ret rs w' => ∃ b', pipelinedCalls P K Link.beside (serveBuffered Q) calls (b, ⟨[], [], w⟩) = .ret rs (b', ⟨[], [], w'⟩) ∧
        Reachable Q K f (hosted defs) shared (b', ⟨[], [], w'⟩) ∧ Pending b' []
    | .threw w' => ∃ b' l, pipelinedCalls P K Link.beside (serveBuffered Q) calls (b, ⟨[], [], w⟩) = .threw (b', l) ∧ l.world = w'
    | .fault f => pipelinedCalls P K Link.beside (serveBuffered Q) calls (b, ⟨[], [], w⟩) = .fault f := by
  have h := pipelined_server (t := (b, ⟨[], [], w⟩)) hP hQ.ring hs ht (buffered_server hQ ho) hc ⟨hr, hp⟩ rfl
  cases hl : localCalls defs calls w with
  | fault e => rw [hl] at h; exact h
  | threw w' =>
    rw [hl] at h
    obtain ⟨⟨b', l⟩, h1, h2⟩ := h
    exact ⟨b', l, h1, h2⟩
  | ret rs w' =>
    rw [hl] at h
    obtain ⟨⟨b', l⟩, h1, h2, h3⟩ := h
    have h3 : l = _ := h3
    subst h3
    exact ⟨b', h1, h2⟩

/-- C61, all the requests being sent first, unbuffered dispatcher. -/
theorem C61_pipelined_unbuffered (hP : P.Valid) (hQ : Q.Valid) (hK : KeyringOk K) (hsP : Supported P K.e K.s) (hsQ : Supported Q K.e K.s)
    (htP : ∀ d ∈ K.decls, WellTyped P K.s ⟨d.sig, defs d.name⟩) (htQ : ∀ d ∈ K.decls, WellTyped Q K.s ⟨d.sig, defs d.name⟩)
    {calls : List (Nat × List Val)} (hc : CallsOk P Q K calls) (f : Features) (w : σ) :
    match localCalls defs calls w with
    | .ret rs w' => pipelinedCalls P K (Lens.whole _) (serveUnbuffered Q (Dispatcher.make K f (hosted defs))) calls ⟨[], [], w⟩ =
        .ret rs ⟨[], [], w'⟩
    | .threw w' => ∃ l, pipelinedCalls P K (Lens.whole _) (serveUnbuffered Q (Dispatcher.make K f (hosted defs))) calls ⟨[], [], w⟩ =
        .threw l ∧ l.world = w'
    | .fault f' => pipelinedCalls P K (Lens.whole _) (serveUnbuffered Q (Dispatcher.make K f (hosted defs))) calls ⟨[], [], w⟩ =
        .fault f' := by
  have h := pipelined_server (t := (⟨[], [], w⟩ : Link σ)) hP hK hsP htP (unbuffered_server (f := f) hQ hK hsQ htQ) hc trivial rfl
  cases hl : localCalls defs calls w with
  | fault e => rw [hl] at h; exact h
  | threw w' => rw [hl] at h; exact h
  | ret rs w' =>
    rw [hl] at h
    obtain ⟨l, h1, _, h3⟩ := h
    have h3 : l = _ := h3
    subst h3
    exact h1

/-! Examples: the caller is a microcontroller, the callee a computer. -/

theorem led_typed_avr : ∀ d ∈ ledRing.decls, WellTyped avr ledRing.s ⟨d.sig, ledDefs d.name⟩ := by
  simp only [ledRing, List.mem_cons, List.not_mem_nil, or_false, forall_eq_or_imp, forall_eq]
  refine ⟨?_, ?_, ?_⟩
  · intro args w r w' hf h
    match args, hf with
    | [.int x, .int y], _ =>
      simp only [ledDefs] at h
      injection h with h1 _
      subst h1
      simp only [RetOk, Val.Fits]
      omega
  · intro args w r w' hf h
    match args, hf with
    | [], _ => simp only [ledDefs] at h; injection h with h1 _; subst h1; simp [RetOk]
  · intro args w r w' hf h
    match args, hf with
    | [.arr vs], _ =>
      simp only [ledDefs] at h
      injection h with h1 _
      subst h1
      simp [RetOk, Val.Fits, Safe, MinSafe, Representable, InRange, avr]

/-- Three calls. -/
def ledCalls : List (Nat × List Val) := [(1, [.int 300, .int 7]), (3, [.arr [.int 4, .int 5]]), (2, [])]

theorem ledCalls_ok : CallsOk avr pc ledRing ledCalls := by
  simp [CallsOk, ledCalls, ledRing, Val.FitsAll, Val.Fits]

theorem ledCalls_local : localCalls ledDefs ledCalls ([], [], []) =
    .ret [some (.int 307), some (.int (-1)), none] ([], [[.int 1, .int 300, .int 7], [.int 3, .int 4, .int 5], [.int 2]], []) := rfl

example : ∃ b', blockingCalls avr ledRing Link.beside (serveBuffered pc) ledCalls
      (fresh pc ledRing .any (hosted ledDefs) 255 true, ⟨[], [], ([], [], [])⟩) =
    .ret [some (.int 307), some (.int (-1)), none]
      (b', ⟨[], [], ([], [[.int 1, .int 300, .int 7], [.int 3, .int 4, .int 5], [.int 2]], [])⟩) := by
  have h := C61_blocking avr_valid (avr_supported _ _) (led_setting .any) led_typed_avr (led_fit true) ledCalls_ok (w := ([], [], []))
    ⟨255, _, .start⟩ (fresh_pending _ _ _ _ _ _)
  rw [ledCalls_local] at h
  exact h.imp fun _ h => h.1

example : blockingCalls avr ledRing (Lens.whole _) (serveUnbuffered pc (Dispatcher.make ledRing .any (hosted ledDefs))) ledCalls
      ⟨[], [], ([], [], [])⟩ =
    .ret [some (.int 307), some (.int (-1)), none] ⟨[], [], ([], [[.int 1, .int 300, .int 7], [.int 3, .int 4, .int 5], [.int 2]], [])⟩ := by
  rw [C61_blocking_unbuffered avr_valid pc_valid ledRing_ok (avr_supported _ _) (pc_supported _ _) led_typed_avr (led_setting .any).typed
    ledCalls_ok .any, ledCalls_local]

example : ∃ b', pipelinedCalls avr ledRing Link.beside (serveBuffered pc) ledCalls
      (fresh pc ledRing .any (hosted ledDefs) 255 false, ⟨[], [], ([], [], [])⟩) =
    .ret [some (.int 307), some (.int (-1)), none]
      (b', ⟨[], [], ([], [[.int 1, .int 300, .int 7], [.int 3, .int 4, .int 5], [.int 2]], [])⟩) := by
  have h := C61_pipelined avr_valid (avr_supported _ _) (led_setting .any) led_typed_avr (led_fit false) ledCalls_ok (w := ([], [], []))
    ⟨255, _, .start⟩ (fresh_pending _ _ _ _ _ _)
  rw [ledCalls_local] at h
  exact h.imp fun _ h => h.1

example : pipelinedCalls avr ledRing (Lens.whole _) (serveUnbuffered pc (Dispatcher.make ledRing .any (hosted ledDefs))) ledCalls
      ⟨[], [], ([], [], [])⟩ =
    .ret [some (.int 307), some (.int (-1)), none] ⟨[], [], ([], [[.int 1, .int 300, .int 7], [.int 3, .int 4, .int 5], [.int 2]], [])⟩ := by
  have h := C61_pipelined_unbuffered avr_valid pc_valid ledRing_ok (avr_supported _ _) (pc_supported _ _) led_typed_avr
    (led_setting .any).typed ledCalls_ok .any ([], [], [])
  rw [ledCalls_local] at h
  exact h

end Upd
