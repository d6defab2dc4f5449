import Verif.Lemmas.Async
import Verif.Props.Retry

/-!
# Coroutines which call a device at the same time

C111: coroutines of the Python client, suspended in any order, each get the results of their own calls, and behave as programs which take turns and call the functions directly.
-/

namespace Upd
open Spec TypeList

variable {σ α : Type} {P Q : Platform} {K : Keyring} {f : Features} {defs : Nat → List Val → Eff σ (Option Val)} {shared : Bool}

/-- C111. Whatever happens in whatever order (coroutines run or are cancelled, the device serves requests, responses arrive), the coroutines are where they would be without device and bytes: calls are executed in the
order of the requests, once each, and every result is handed over to the coroutine which made the call, or to nobody if it was cancelled. The device has a buffered dispatcher. -/
theorem C111_coroutines (hP : P.Valid) (hs : Supported P K.e K.s) (ht : ∀ d ∈ K.decls, WellTyped P K.s ⟨d.sig, defs d.name⟩)
    (hsz : ∀ d ∈ K.decls, ∀ t ∈ d.sig.params, t.sizeof = wireSize t) (h : Setting Q K f defs) (ho : ResponsesFit K shared) {progs : List (Talk σ α)}
    (hp : ∀ p ∈ progs, TalkFits P Q K p) {b : Buf (Link σ)} {w : σ} (hr : Reachable Q K f (hosted defs) shared (b, ⟨[], [], w⟩)) (hb : Pending b [])
    (es : List Happening) :
    LoopOutcome Link.beside (Office.run K defs es ⟨progs.map .ready, [], [], w⟩)
      (EventLoop.run P K Link.beside (serveBuffered Q) es ⟨progs.map .ready, [], [], (b, ⟨[], [], w⟩)⟩) :=
  loop_outcome hP h.ring hs hsz ht (buffered_server h ho) es (loop_start hp ⟨hr, hb⟩ rfl)

/-- C111, with an unbuffered dispatcher. -/
theorem C111_coroutines_unbuffered (hP : P.Valid) (hQ : Q.Valid) (hK : KeyringOk K) (hs : Supported P K.e K.s) (hsQ : Supported Q K.e K.s)
    (ht : ∀ d ∈ K.decls, WellTyped P K.s ⟨d.sig, defs d.name⟩) (htQ : ∀ d ∈ K.decls, WellTyped Q K.s ⟨d.sig, defs d.name⟩)
    (hsz : ∀ d ∈ K.decls, ∀ t ∈ d.sig.params, t.sizeof = wireSize t) {progs : List (Talk σ α)} (hp : ∀ p ∈ progs, TalkFits P Q K p) (f : Features) (w : σ)
    (es : List Happening) :
    LoopOutcome (Lens.whole _) (Office.run K defs es ⟨progs.map .ready, [], [], w⟩)
      (EventLoop.run P K (Lens.whole _) (serveUnbuffered Q (Dispatcher.make K f (hosted defs))) es ⟨progs.map .ready, [], [], ⟨[], [], w⟩⟩) :=
  loop_outcome hP hK hs hsz ht (unbuffered_server hQ hK hsQ htQ) es (loop_start hp trivial rfl)

/-- C111, calls are atomic: whatever happens, the effects and the results are those of the programs when they take turns, in some order, and call the functions directly, each call being executed at
once. -/
theorem C111_atomic (hP : P.Valid) (hs : Supported P K.e K.s) (ht : ∀ d ∈ K.decls, WellTyped P K.s ⟨d.sig, defs d.name⟩)
    (hsz : ∀ d ∈ K.decls, ∀ t ∈ d.sig.params, t.sizeof = wireSize t) (h : Setting Q K f defs) (ho : ResponsesFit K shared) {progs : List (Talk σ α)}
    (hp : ∀ p ∈ progs, TalkFits P Q K p) {b : Buf (Link σ)} {w : σ} (hr : Reachable Q K f (hosted defs) shared (b, ⟨[], [], w⟩)) (hb : Pending b [])
    (es : List Happening) :
    match EventLoop.run P K Link.beside (serveBuffered Q) es ⟨progs.map .ready, [], [], (b, ⟨[], [], w⟩)⟩ with
    | .ret _ s => ∃ order ps, interleaved K defs order (progs, w) = .ret () (ps, s.rest.2.world) ∧
        ∀ (c : Nat) a, s.coros[c]? = some (Coro.finished a) → ps[c]? = some (Talk.done a)
    | .threw s => ∃ order ps, interleaved K defs order (progs, w) = .threw (ps, s.rest.2.world)
    | .fault flt => ∃ order, interleaved K defs order (progs, w) = .fault flt := by
  have h1 := C111_coroutines hP hs ht hsz h ho hp hr hb es
  have h2 := ledger_run (K := K) (defs := defs) es (ledger_start progs w)
  cases hrun : Office.run K defs es ⟨progs.map .ready, [], [], w⟩ with
  | fault flt =>
    rw [hrun] at h1 h2
    have h1 : EventLoop.run P K Link.beside (serveBuffered Q) es _ = _ := h1
    rw [h1]
    exact h2
  | threw o =>
    rw [hrun] at h1 h2
    obtain ⟨s, h1, hw⟩ := h1
    rw [h1]
    have hw : s.rest.2.world = o.world := hw
    dsimp only
    rw [hw]
    exact h2
  | ret u o =>
    rw [hrun] at h1 h2
    obtain ⟨s, h1, hc, hw⟩ := h1
    rw [h1]
    obtain ⟨order, ps, h3, h4⟩ := h2
    have hw : s.rest.2.world = o.world := hw
    dsimp only
    rw [hw]
    refine ⟨order, ps, h3, fun c a ha => h4.finished c a ?_⟩
    rw [← hc, List.getElem?_map, ha]
    rfl

/-- C111, no deadlock: as long as a coroutine is neither finished nor cancelled, there is one which can run, or a request to be served, or a response to be delivered. -/
theorem C111_progress (hP : P.Valid) (hs : Supported P K.e K.s) (ht : ∀ d ∈ K.decls, WellTyped P K.s ⟨d.sig, defs d.name⟩)
    (hsz : ∀ d ∈ K.decls, ∀ t ∈ d.sig.params, t.sizeof = wireSize t) (h : Setting Q K f defs) (ho : ResponsesFit K shared) {progs : List (Talk σ α)}
    (hp : ∀ p ∈ progs, TalkFits P Q K p) {b : Buf (Link σ)} {w : σ} (hr : Reachable Q K f (hosted defs) shared (b, ⟨[], [], w⟩)) (hb : Pending b [])
    {es : List Happening} {s : EventLoop σ α (BState (Link σ))}
    (hrun : EventLoop.run P K Link.beside (serveBuffered Q) es ⟨progs.map .ready, [], [], (b, ⟨[], [], w⟩)⟩ = .ret () s) {c : Nat} {x : Coro σ α}
    (hx : s.coros[c]? = some x) (hf : ∀ a, x ≠ .finished a) (hn : x ≠ .cancelled) : (∃ p, x = .ready p) ∨ s.rest.2.up ≠ [] ∨ s.inbox ≠ [] := by
  have h1 := loop_run hP h.ring hs hsz ht (buffered_server h ho) es
    (loop_start (L := Link.beside) hp (t := (b, ⟨[], [], w⟩)) (w := w) ⟨hr, hb⟩ rfl)
  have h2 := ledger_run (K := K) (defs := defs) es (ledger_start progs w)
  cases hrun' : Office.run K defs es ⟨progs.map .ready, [], [], w⟩ with
  | fault flt => rw [hrun', hrun] at h1; cases h1
  | threw o =>
    rw [hrun'] at h1
    obtain ⟨_, h1, _⟩ := h1
    rw [hrun] at h1
    cases h1
  | ret u o =>
    rw [hrun'] at h1 h2
    obtain ⟨s', h1, h3⟩ := h1
    rw [hrun] at h1
    cases h1
    obtain ⟨order, ps, _, h4⟩ := h2
    cases x with
    | ready p => exact .inl ⟨p, rfl⟩
    | finished a => exact absurd rfl (hf a)
    | cancelled => exact absurd rfl hn
    | awaiting key k =>
      right
      have hc : o.callers[c]? = some (.waiting k) := by rw [callers_get h3 c, hx]; rfl
      rcases List.mem_append.mp (h4.listed c k hc) with hm | hm
      · right
        intro he
        have hh := h3.held
        rw [he] at hh
        generalize o.results = rs at hh hm
        cases hh
        cases hm
      · left
        intro he
        obtain ⟨bs, ha, hl⟩ := h3.asked
        have hl : s.rest.2 = _ := hl
        rw [hl] at he
        have he : bs = [] := he
        subst he
        generalize hcs : o.calls = cs at ha hm
        generalize hbs : ([] : List Byte) = bs at ha
        cases ha with
        | nil => cases hm
        | cons g1 g2 g3 g4 g5 =>
          have hl := congrArg List.length hbs
          rw [request, List.length_append, List.length_append, wireBytes_length] at hl
          have : 1 ≤ K.idxBytes := (idxBytes_pos h.ring.1).1
          simp only [List.length_nil] at hl
          omega

/-- C111, a coroutine alone: whatever the delays, what it returns and its effects are those of the program which calls the functions directly. -/
theorem C111_alone (hP : P.Valid) (hs : Supported P K.e K.s) (ht : ∀ d ∈ K.decls, WellTyped P K.s ⟨d.sig, defs d.name⟩)
    (hsz : ∀ d ∈ K.decls, ∀ t ∈ d.sig.params, t.sizeof = wireSize t) (h : Setting Q K f defs) (ho : ResponsesFit K shared) {prog : Talk σ α}
    (hp : TalkFits P Q K prog) {b : Buf (Link σ)} {w : σ} (hr : Reachable Q K f (hosted defs) shared (b, ⟨[], [], w⟩)) (hb : Pending b [])
    {es : List Happening} {s : EventLoop σ α (BState (Link σ))}
    (hrun : EventLoop.run P K Link.beside (serveBuffered Q) es ⟨[.ready prog], [], [], (b, ⟨[], [], w⟩)⟩ = .ret () s) {a : α}
    (ha : s.coros[0]? = some (.finished a)) : direct K defs prog w = .ret a s.rest.2.world := by
  have h1 := C111_atomic hP hs ht hsz h ho (progs := [prog]) (by simpa using hp) hr hb es
  have hrun : EventLoop.run P K Link.beside (serveBuffered Q) es ⟨[prog].map .ready, [], [], (b, ⟨[], [], w⟩)⟩ = .ret () s := hrun
  rw [hrun] at h1
  obtain ⟨order, ps, h2, h3⟩ := h1
  obtain ⟨p', rfl, h4⟩ := interleaved_alone order h2
  have h5 := h3 0 a ha
  simp only [List.getElem?_cons_zero, Option.some.injEq] at h5
  subst h5
  exact h4

/-! Example: two coroutines on a device with a counter: one increments the counter twice and adds the results, the other one sets the counter. -/

def countTwice : Talk Nat (Option Int) :=
  .call 1 [] fun r => .call 1 [] fun r' =>
    match r, r' with
    | some (.int x), some (.int y) => .done (some (x + y))
    | _, _ => .done none

def setCounter : Talk Nat (Option Int) := .call 0 [.int 500] fun r =>
  match r with
  | some (.int x) => .done (some x)
  | _ => .done none

theorem counting_fits : ∀ p ∈ [countTwice, setCounter], TalkFits pc avr dialRing p := by
  have h1 : ∀ r r' : Option Val, TalkFits (σ := Nat) pc avr dialRing
      (match r, r' with
      | some (.int x), some (.int y) => .done (some (x + y))
      | _, _ => .done none : Talk Nat (Option Int)) := by
    intro r r'
    split <;> trivial
  have h2 : ∀ r : Option Val, TalkFits (σ := Nat) pc avr dialRing
      (match r with
      | some (.int x) => .done (some x)
      | _ => .done none : Talk Nat (Option Int)) := by
    intro r
    split <;> trivial
  simp only [List.mem_cons, List.not_mem_nil, or_false, forall_eq_or_imp, forall_eq]
  exact ⟨⟨⟨⟨2, [], some (.uint 2)⟩, rfl, trivial, trivial⟩, fun r => ⟨⟨⟨2, [], some (.uint 2)⟩, rfl, trivial, trivial⟩, fun r' => h1 r r'⟩⟩,
    ⟨⟨1, [.uint 2], some (.uint 2)⟩, rfl, by simp [Val.FitsAll, Val.Fits], by simp [Val.FitsAll, Val.Fits]⟩, fun r => h2 r⟩

theorem dial_typed_avr : ∀ d ∈ dialRing.decls, WellTyped avr dialRing.s ⟨d.sig, dialDefs d.name⟩ := by
  simp only [dialRing, List.mem_cons, List.not_mem_nil, or_false, forall_eq_or_imp, forall_eq]
  refine ⟨?_, ?_, ?_⟩
  · intro args w r w' hf h
    match args, hf with
    | [.int x], hf =>
      simp only [dialDefs] at h
      cases h
      simpa [RetOk, Val.FitsAll] using hf
  · intro args w r w' hf h
    match args, hf with
    | [], hf =>
      simp only [dialDefs] at h
      cases h
      simp only [RetOk, Val.Fits]
      omega
  · intro args w r w' hf h
    match args, hf with
    | [.int x], hf =>
      simp only [dialDefs] at h
      cases h
      simp [RetOk]

theorem dial_setting_avr (f : Features) : Setting avr dialRing f dialDefs where
  valid := avr_valid
  ring := (dial_setting f).ring
  sup := avr_supported _ _
  sizes := (dial_setting f).sizes
  typed := dial_typed_avr

/-- Both send requests before any of them is served. -/
@[irreducible] def countingEvents : List Happening :=
  [.step 0, .step 1, .serve, .serve, .deliver, .deliver, .step 1, .step 0, .step 1, .serve, .deliver, .step 0]

theorem counting_run : Office.run dialRing dialDefs countingEvents ⟨[countTwice, setCounter].map .ready, [], [], 3⟩ =
    .ret () ⟨[.finished (some 505), .finished (some 500)], [], [], 501⟩ := by
  unfold countingEvents
  simp [Office.run, Office.next, countTwice, setCounter, dialRing, dialDefs, bind, Eff.bind, pure]

example : ∃ s, EventLoop.run pc dialRing Link.beside (serveBuffered avr) countingEvents
      ⟨[countTwice, setCounter].map .ready, [], [], (fresh avr dialRing .any (hosted dialDefs) 255 true, ⟨[], [], 3⟩)⟩ = .ret () s ∧
    s.coros.map Coro.caller = [.finished (some 505), .finished (some 500)] ∧ s.rest.2.world = 501 := by
  have h := C111_coroutines pc_valid (pc_supported _ _) (dial_setting .any).typed (by simp [dialRing, Ty.sizeof, wireSize]) (dial_setting_avr .any) (dial_fit true)
    counting_fits (w := 3) ⟨255, _, .start⟩ (fresh_pending _ _ _ _ _ _) countingEvents
  rw [counting_run] at h
  exact h

example (f : Features) : ∃ s, EventLoop.run pc dialRing (Lens.whole _) (serveUnbuffered avr (Dispatcher.make dialRing f (hosted dialDefs))) countingEvents
      ⟨[countTwice, setCounter].map .ready, [], [], ⟨[], [], 3⟩⟩ = .ret () s ∧
    s.coros.map Coro.caller = [.finished (some 505), .finished (some 500)] ∧ s.rest.world = 501 := by
  have h := C111_coroutines_unbuffered pc_valid avr_valid (dial_setting f).ring (pc_supported _ _) (avr_supported _ _) (dial_setting .any).typed dial_typed_avr
    (by simp [dialRing, Ty.sizeof, wireSize]) counting_fits f 3 countingEvents
  rw [counting_run] at h
  exact h

/-- The second coroutine is cancelled while its request is on its way: the function is called, the result is thrown away, and the first coroutine gets its own results. -/
@[irreducible] def cancellingEvents : List Happening :=
  [.step 0, .step 1, .cancel 1, .serve, .serve, .deliver, .deliver, .step 0, .step 1, .serve, .deliver, .step 0]

theorem cancelling_run : Office.run dialRing dialDefs cancellingEvents ⟨[countTwice, setCounter].map .ready, [], [], 3⟩ =
    .ret () ⟨[.finished (some 505), .cancelled], [], [], 501⟩ := by
  unfold cancellingEvents
  simp [Office.run, Office.next, countTwice, setCounter, dialRing, dialDefs, bind, Eff.bind, pure]

example : ∃ s, EventLoop.run pc dialRing Link.beside (serveBuffered avr) cancellingEvents
      ⟨[countTwice, setCounter].map .ready, [], [], (fresh avr dialRing .any (hosted dialDefs) 255 true, ⟨[], [], 3⟩)⟩ = .ret () s ∧
    s.coros.map Coro.caller = [.finished (some 505), .cancelled] ∧ s.rest.2.world = 501 := by
  have h := C111_coroutines pc_valid (pc_supported _ _) (dial_setting .any).typed (by simp [dialRing, Ty.sizeof, wireSize]) (dial_setting_avr .any) (dial_fit true)
    counting_fits (w := 3) ⟨255, _, .start⟩ (fresh_pending _ _ _ _ _ _) cancellingEvents
  rw [cancelling_run] at h
  exact h

/-- The calls take effect in this order: first call of the first coroutine, call of the second one, second call of the first one. -/
example : interleaved dialRing dialDefs [0, 1, 0] ([countTwice, setCounter], 3) = .ret () ([.done (some 505), .done (some 500)], 501) := rfl

/-- Whatever happens, the two coroutines take turns. -/
example (es : List Happening) (s : EventLoop Nat (Option Int) (BState (Link Nat)))
    (hrun : EventLoop.run pc dialRing Link.beside (serveBuffered avr) es
      ⟨[countTwice, setCounter].map .ready, [], [], (fresh avr dialRing .any (hosted dialDefs) 255 true, ⟨[], [], 3⟩)⟩ = .ret () s) :
    ∃ order ps, interleaved dialRing dialDefs order ([countTwice, setCounter], 3) = .ret () (ps, s.rest.2.world) ∧
      ∀ (c : Nat) a, s.coros[c]? = some (Coro.finished a) → ps[c]? = some (Talk.done a) := by
  have h := C111_atomic pc_valid (pc_supported _ _) (dial_setting .any).typed (by simp [dialRing, Ty.sizeof, wireSize]) (dial_setting_avr .any) (dial_fit true)
    counting_fits (w := 3) ⟨255, _, .start⟩ (fresh_pending _ _ _ _ _ _) es
  rw [hrun] at h
  exact h

example (es : List Happening) (s : EventLoop Nat (Option Int) (BState (Link Nat)))
    (hrun : EventLoop.run pc dialRing Link.beside (serveBuffered avr) es
      ⟨[countTwice, setCounter].map .ready, [], [], (fresh avr dialRing .any (hosted dialDefs) 255 true, ⟨[], [], 3⟩)⟩ = .ret () s)
    (hu : s.rest.2.up = []) (hi : s.inbox = []) {c : Nat} {x : Coro Nat (Option Int)} (hx : s.coros[c]? = some x) (hn : x ≠ .cancelled) :
    (∃ p, x = .ready p) ∨ ∃ a, x = .finished a := by
  by_cases hf : ∃ a, x = .finished a
  · exact .inr hf
  · rcases C111_progress pc_valid (pc_supported _ _) (dial_setting .any).typed (by simp [dialRing, Ty.sizeof, wireSize]) (dial_setting_avr .any) (dial_fit true)
      counting_fits (w := 3) ⟨255, _, .start⟩ (fresh_pending _ _ _ _ _ _) hrun hx (fun a h => hf ⟨a, h⟩) hn with h | h | h
    · exact .inl h
    · exact absurd hu h
    · exact absurd hi h

example (es : List Happening) (s : EventLoop Nat (Option Int) (BState (Link Nat))) (a : Option Int)
    (hrun : EventLoop.run pc dialRing Link.beside (serveBuffered avr) es
      ⟨[.ready countTwice], [], [], (fresh avr dialRing .any (hosted dialDefs) 255 true, ⟨[], [], 3⟩)⟩ = .ret () s)
    (ha : s.coros[0]? = some (.finished a)) : a = some 9 := by
  have h := C111_alone pc_valid (pc_supported _ _) (dial_setting .any).typed (by simp [dialRing, Ty.sizeof, wireSize]) (dial_setting_avr .any) (dial_fit true)
    (counting_fits _ (List.mem_cons_self ..)) (w := 3) ⟨255, _, .start⟩ (fresh_pending _ _ _ _ _ _) hrun ha
  have h' : direct dialRing dialDefs countTwice 3 = .ret (some 9) 5 := rfl
  rw [h'] at h
  injection h with h _
  exact h.symm

end Upd
