import Verif.Spec.Sink
import Verif.Props.BufferedIO

/-!
# Byte putters which throw (C88)
-/

namespace Upd
open Spec TypeList

variable {σ τ : Type}

theorem putAll_threw_iff {dest : Byte → Eff τ Unit} : ∀ {bs : List Byte} {w w' : τ},
    putAll dest bs w = .threw w' ↔ ∃ rest, Refuses dest w bs rest w'
  | [], w, w' => by
    constructor
    · intro h; cases h
    · rintro ⟨_, pre, x, _, h, _⟩
      simp at h
  | x :: bs, w, w' => by
    constructor
    · intro h
      have h : (dest x >>= fun _ => putAll dest bs) w = .threw w' := h
      cases hd : dest x w with
      | fault f => rw [Eff.bind_fault hd] at h; cases h
      | threw w1 =>
        rw [Eff.bind_threw hd] at h
        cases h
        exact ⟨bs, [], x, w, rfl, .nil _, hd⟩
      | ret _ w1 =>
        rw [Eff.bind_ret hd] at h
        obtain ⟨rest, pre, y, w2, rfl, h1, h2⟩ := putAll_threw_iff.1 h
        exact ⟨rest, x :: pre, y, w2, rfl, .cons hd h1, h2⟩
    · rintro ⟨rest, pre, y, w1, h, h1, h2⟩
      show (dest x >>= fun _ => putAll dest bs) w = .threw w'
      cases h1 with
      | nil =>
        simp only [List.nil_append, List.cons.injEq] at h
        obtain ⟨rfl, rfl⟩ := h
        rw [Eff.bind_threw h2]
      | @cons _ w2 _ _ pre h3 h4 =>
        simp only [List.cons_append, List.cons.injEq] at h
        obtain ⟨rfl, rfl⟩ := h
        rw [Eff.bind_ret h3]
        exact putAll_threw_iff.2 ⟨rest, pre, y, w1, rfl, h4, h2⟩

theorem refuses_unique {dest : Byte → Eff τ Unit} {w w1 w2 : τ} {bs r1 r2 : List Byte} (h1 : Refuses dest w bs r1 w1) (h2 : Refuses dest w bs r2 w2) :
    r1 = r2 ∧ w1 = w2 := by
  obtain ⟨p1, x1, v1, e1, a1, t1⟩ := h1
  obtain ⟨p2, x2, v2, e2, a2, t2⟩ := h2
  subst e1
  induction a1 generalizing p2 with
  | nil =>
    cases a2 with
    | nil =>
      simp only [List.nil_append, List.cons.injEq] at e2
      obtain ⟨rfl, rfl⟩ := e2
      rw [t1] at t2
      cases t2
      exact ⟨rfl, rfl⟩
    | cons h3 _ =>
      simp only [List.nil_append, List.cons_append, List.cons.injEq] at e2
      obtain ⟨rfl, _⟩ := e2
      rw [t1] at h3
      cases h3
  | cons h0 _ ih =>
    cases a2 with
    | nil =>
      simp only [List.nil_append, List.cons_append, List.cons.injEq] at e2
      obtain ⟨rfl, _⟩ := e2
      rw [t2] at h0
      cases h0
    | cons h3 h4 =>
      simp only [List.cons_append, List.cons.injEq] at e2
      obtain ⟨rfl, e2⟩ := e2
      rw [h0] at h3
      cases h3
      exact ih t1 _ h4 e2

/-- C88, requests: `key(args...).write_to(dest)` throws exactly when `dest` refuses a byte of the request. The bytes before it have been given to `dest`, in
order; those after it are not. -/
theorem C88_request {P : Platform} (hP : P.Valid) {k : Key} (hs : Supported P k.e k.s) (hk : 1 ≤ k.idxBytes) (hi : k.index < 256 ^ k.idxBytes)
    (hg : SigOk k.sig) {args : List Val} (hf : Val.FitsAll (Safe P k.s) k.sig.params args) (dest : Byte → Eff τ Unit) (w w' : τ) :
    k.writeTo P args dest w = .threw w' ↔ ∃ rest, Refuses dest w (request k.e k.s k.idxBytes k.index k.sig.params args) rest w' := by
  rw [C29_request_format hP hs hk hi hg hf]
  exact putAll_threw_iff

/-- C88, dispatchers: once the callback has returned, the dispatcher throws exactly when `dest` refuses a byte of the response. The callback is not called
again. -/
theorem C88_dispatcher {P : Platform} {K : Keyring} {f : Features} {defs : Nat → List Val → Eff σ (Option Val)} (h : Setting P K f defs) {i : Nat}
    (hi : i < K.decls.length) {args : List Val} (hf : Val.FitsAll (Safe P K.s) K.decls[i].sig.params args) {src : Eff σ Byte} {w w1 w2 : σ}
    (hy : Yields src w (request K.e K.s K.idxBytes i K.decls[i].sig.params args) w1) {r : Option Val} (hd : defs K.decls[i].name args w1 = .ret r w2)
    (dest : Byte → Eff σ Unit) (w' : σ) :
    (Dispatcher.make K f defs).run P (Lens.whole σ) src dest w = .threw w' ↔ ∃ rest, Refuses dest w2 (response K.e K.s K.decls[i].sig.ret r) rest w' := by
  have hg := h.ring.2 K.decls[i] (List.getElem_mem _)
  have hib : i < 256 ^ K.idxBytes := Nat.lt_trans hi (idxBytes_pos h.ring.1).2
  have h0 := run_request h.valid (D := Dispatcher.make K f defs) h.sup (idxBytes_pos h.ring.1).1 (i := i)
    (by show i < K.size; rw [K.size_eq h.ring.1]; exact hi) hib (make_acts hi) (makeAction_holds f K.e K.s _) hg (Lens.whole σ)
    (dest := dest) hf hy
  rw [h0, zoom_whole]
  show (defs K.decls[i].name args >>= _) w1 = _ ↔ _
  rw [Eff.bind_ret hd]
  show (respond P K.e K.s K.decls[i].sig.ret r dest >>= _) w2 = _ ↔ _
  rw [respond_eq h.valid h.sup hg.2.2 (h.typed _ (List.getElem_mem hi) _ _ _ _ hf hd), ← putAll_threw_iff]
  cases hp : putAll dest (response K.e K.s K.decls[i].sig.ret r) w2 with
  | ret _ w3 =>
    rw [Eff.bind_ret hp]
    constructor <;> intro h <;> cases h
  | threw w3 => rw [Eff.bind_threw hp]; simp
  | fault e => rw [Eff.bind_fault hp]; simp

/-- C88, `write_to` on a buffered dispatcher throws exactly when `dest` refuses a byte of the response. The refused byte is not kept: the bytes left to
be read are those after it. What has been received of the next request is kept. -/
theorem C88_write_to {b : Buf σ} {out : List Byte} (hu : Unread b out) (dest : Byte → Eff σ Unit) (w : σ) :
    (∀ b' w', Buf.writeTo dest (b, w) = .threw (b', w') →
      ∃ rest, Refuses dest w out rest w' ∧ Unread b' rest ∧ ∀ l, Pending b l → Pending b' l) ∧
    ∀ rest w', Refuses dest w out rest w' →
      ∃ b', Buf.writeTo dest (b, w) = .threw (b', w') ∧ Unread b' rest ∧ ∀ l, Pending b l → Pending b' l := by
  rcases writeTo_cases dest (w := w) hu with ⟨w', h1, h2⟩ | ⟨sent, x, rest, w1, rfl, h1, h2⟩
  · constructor
    · intro b' w' h
      rw [h2] at h
      cases h
    · intro rest w2 hr
      have := (putAll_threw_iff (dest := dest) (w := w)).2 ⟨rest, hr⟩
      rw [putAll_accepts h1] at this
      cases this
  · rcases h2 with ⟨w', h3, h5, h4⟩ | ⟨f, h3, h4⟩
    · constructor
      · intro b' w2 h
        rw [h4] at h
        injection h with h
        injection h with e1 e2
        subst e1 e2
        exact ⟨rest, ⟨sent, x, w1, rfl, h1, h3⟩, h5, fun l hl => ⟨hl.next, hl.bytes⟩⟩
      · intro rest' w2 hr
        have hr' : Refuses dest w (sent ++ x :: rest) rest w' := ⟨sent, x, w1, rfl, h1, h3⟩
        obtain ⟨rfl, rfl⟩ := refuses_unique hr' hr
        exact ⟨_, h4, h5, fun l hl => ⟨hl.next, hl.bytes⟩⟩
    · constructor
      · intro b' w2 h
        rw [h4] at h
        cases h
      · intro rest' w2 hr
        have := (putAll_threw_iff (dest := dest) (w := w)).2 ⟨rest', hr⟩
        rw [putAll_prefix h1] at this
        have h6 : putAll dest (x :: rest) w1 = .fault f := Eff.bind_fault (f := fun _ => putAll dest rest) h3
        rw [h6] at this
        cases this

/-- C88, `operator()` on a buffered dispatcher, for a whole request whose callback returns `r`: when `dest` refuses a byte of the response, the callback has
been called once, the bytes after the refused one can still be read, and the next packet can be received. -/
theorem C88_process {P : Platform} {K : Keyring} {f : Features} {defs : Nat → List Val → Eff σ (Option Val)} {shared : Bool} (h : Setting P K f defs)
    {b : Buf σ} {w w1 w2 : σ} (hr : Reachable P K f defs shared (b, w)) (hp : Pending b []) {i : Nat} (hi : i < K.decls.length) {args : List Val}
    (hf : Val.FitsAll (Safe P K.s) K.decls[i].sig.params args) (ho : retSize K.decls[i].sig.ret ≤ outRoom K shared) {src : Eff σ Byte}
    (hy : Yields src w (request K.e K.s K.idxBytes i K.decls[i].sig.params args) w1) {r : Option Val} (hd : defs K.decls[i].name args w1 = .ret r w2)
    {dest : Byte → Eff σ Unit} {rest : List Byte} {w' : σ} (hx : Refuses dest w2 (response K.e K.s K.decls[i].sig.ret r) rest w') :
    ∃ b', Buf.process P src dest (b, w) = .threw (b', w') ∧ Pending b' [] ∧ Unread b' rest := by
  have h1 := C44_request h hr hp hi hf ho hy
  rw [hd] at h1
  obtain ⟨b1, h2, h3, h4⟩ := h1
  obtain ⟨b2, h5, h6, h7⟩ := (C88_write_to h4 dest w2).2 rest w' hx
  refine ⟨b2, ?_, h7 _ h3, h6⟩
  show (Buf.readFrom P src >>= fun status =>
    if status = .resolved then Buf.writeTo dest >>= fun _ => pure status else pure status) (b, w) = _
  rw [Eff.bind_ret h2, if_pos rfl, Eff.bind_threw h5]

/-- C88, `reply`: when `output` refuses a byte of the new request, the whole response is lost: nothing is left to be read, and calling `reply` again sends
nothing (unless the response was empty). -/
theorem C88_reply {P : Platform} (hP : P.Valid) {k : Key} {n : Nat} (hk : ReplyKey P k n) {b : Buf σ} {out : List Byte} (hu : Unread b out) (hne : out ≠ [])
    {output : Byte → Eff σ Unit} {w w' : σ} {b' : Buf σ} (he : Buf.reply P k n output (b, w) = .threw (b', w')) :
    Unread b' [] ∧ (∀ l, Pending b l → Pending b' l) ∧ ∀ (output' : Byte → Eff σ Unit) (w1 : σ), Buf.reply P k n output' (b', w1) = .ret false (b', w1) := by
  rw [reply_eq hP hk output hu] at he
  have hb : b' = { b with obufNext := b.obufBottom } := by
    split at he
    · split at he <;> cases he
      rfl
    · cases he
  subst hb
  refine ⟨unread_drained hu, fun l hl => ⟨hl.next, hl.bytes⟩, fun output' w1 => C49_no_reply hP hk (unread_drained hu) ?_ output' w1⟩
  rintro ⟨h0, _⟩
  have h0 : b.obufBottom = 0 := h0
  have := hu.bottom
  have : out.length = 0 := by omega
  exact hne (List.length_eq_zero_iff.1 this)

theorem recording_accepts {dest : Byte → Eff τ Unit} {st st' : List Byte × τ} {bs : List Byte} (h : Accepts (recording dest) st bs st') :
    st'.1 = st.1 ++ bs := by
  induction h with
  | nil => simp
  | cons h0 _ ih =>
    rw [ih]
    unfold recording at h0
    split at h0 <;> cases h0
    simp

theorem attempts_cons (dest : Byte → Eff τ Unit) (dests : List (Byte → Eff τ Unit)) (st : BState (List Byte × τ)) :
    attempts (dest :: dests) st =
      match (Buf.writeTo (recording dest) >>= fun _ => pure Obs.unit : Eff (BState (List Byte × τ)) Obs) st with
      | .ret o st' => (attempts dests >>= fun os => pure (some o :: os)) st'
      | .threw st' => (attempts dests >>= fun os => pure (none :: os)) st'
      | .fault f => .fault f := by
  unfold attempts
  rw [List.map_cons, runCaught]
  dsimp only
  have e : (OutOp.writeTo (recording dest)).run st =
    (Buf.writeTo (recording dest) >>= fun _ => pure Obs.unit : Eff (BState (List Byte × τ)) Obs) st := rfl
  rw [e]
  cases (Buf.writeTo (recording dest) >>= fun _ => pure Obs.unit : Eff (BState (List Byte × τ)) Obs) st <;> rfl

/-- C88, trying again: a response is output by any number of calls of `write_to`, whose putters throw or not. Altogether, the bytes given to
the putters are the first bytes of the response, in order, each of them once; the others can still be read. Each call makes progress, and a call
which returns outputs all that was left. -/
theorem C88_attempts {b : Buf (List Byte × τ)} {out : List Byte} (hu : Unread b out) (dests : List (Byte → Eff τ Unit)) {log log' : List Byte} {t t' : τ}
    {os : List (Option Obs)} {b' : Buf (List Byte × τ)} (he : attempts dests (b, (log, t)) = .ret os (b', (log', t'))) :
    ∃ given rest, out = given ++ rest ∧ log' = log ++ given ∧ Unread b' rest ∧ (∀ l, Pending b l → Pending b' l) ∧
      (os.length ≤ given.length ∨ rest = []) ∧ ((∃ o, some o ∈ os) → rest = []) := by
  induction dests generalizing b out log t os with
  | nil =>
    injection he with e1 e2
    injection e2 with e2 e3
    injection e3 with e3 e4
    subst e1 e2 e3 e4
    exact ⟨[], out, rfl, by simp, hu, fun _ h => h, Or.inl (Nat.le_refl _), by rintro ⟨o, ho⟩; cases ho⟩
  | cons dest dests ih =>
    rw [attempts_cons] at he
    rcases writeTo_cases (recording dest) (w := (log, t)) hu with ⟨⟨l1, t1⟩, h1, h2⟩ | ⟨sent, x, rest, ⟨l1, t1⟩, rfl, h1, h2⟩
    · rw [Eff.bind_ret h2] at he
      have he : (attempts dests >>= fun os => pure (some .unit :: os)) ({ b with obufNext := b.obufBottom }, (l1, t1)) = .ret os (b', (log', t')) := he
      cases ha : attempts dests ({ b with obufNext := b.obufBottom }, (l1, t1)) with
      | threw st => rw [Eff.bind_threw ha] at he; cases he
      | fault e => rw [Eff.bind_fault ha] at he; cases he
      | ret os1 st =>
        rw [Eff.bind_ret ha] at he
        cases he
        obtain ⟨given, rest, e1, e2, e3, e4, _, _⟩ := ih (unread_drained hu) ha
        obtain ⟨rfl, rfl⟩ := List.append_eq_nil_iff.1 e1.symm
        have hl : l1 = log ++ out := recording_accepts h1
        refine ⟨out, [], by simp, by rw [e2, hl]; simp, e3, fun l hl => e4 _ ⟨hl.next, hl.bytes⟩, Or.inr rfl, fun _ => rfl⟩
    · rcases h2 with ⟨⟨l2, t2⟩, h3, h5, h4⟩ | ⟨f, h3, h4⟩
      · rw [Eff.bind_threw h4] at he
        have he : (attempts dests >>= fun os => pure (none :: os)) ({ b with obufNext := b.obufNext + (sent.length + 1) }, (l2, t2)) =
          .ret os (b', (log', t')) := he
        cases ha : attempts dests ({ b with obufNext := b.obufNext + (sent.length + 1) }, (l2, t2)) with
        | threw st => rw [Eff.bind_threw ha] at he; cases he
        | fault e => rw [Eff.bind_fault ha] at he; cases he
        | ret os1 st =>
          rw [Eff.bind_ret ha] at he
          cases he
          obtain ⟨given, rest', e1, e2, e3, e4, e5, e6⟩ := ih h5 ha
          have hl : l1 = log ++ sent := recording_accepts h1
          have hl2 : l2 = l1 ++ [x] := by
            unfold recording at h3
            split at h3 <;> cases h3
            rfl
          refine ⟨sent ++ x :: given, rest', by rw [e1]; simp, by rw [e2, hl2, hl]; simp, e3, fun l hl => e4 _ ⟨hl.next, hl.bytes⟩, ?_, ?_⟩
          · rcases e5 with e5 | e5
            · left; simp; omega
            · exact Or.inr e5
          · rintro ⟨o, ho⟩
            refine e6 ⟨o, ?_⟩
            simpa using ho
      · rw [Eff.bind_fault h4] at he
        cases he

/-- The attempts always return, if the putters do not fault. -/
theorem C88_attempts_return {b : Buf (List Byte × τ)} {out : List Byte} (hu : Unread b out) (dests : List (Byte → Eff τ Unit))
    (hd : ∀ dest ∈ dests, ∀ x t f, dest x t ≠ .fault f) (log : List Byte) (t : τ) : ∃ os st, attempts dests (b, (log, t)) = .ret os st := by
  induction dests generalizing b out log t with
  | nil => exact ⟨_, _, rfl⟩
  | cons dest dests ih =>
    have key : ∀ {b1 : Buf (List Byte × τ)} {out1 : List Byte} (_ : Unread b1 out1) (l1 : List Byte) (t1 : τ) (o : Option Obs),
        ∃ os st, (attempts dests >>= fun os => pure (o :: os)) (b1, (l1, t1)) = .ret os st := by
      intro b1 out1 hu1 l1 t1 o
      obtain ⟨os, st, h⟩ := ih hu1 (fun d hd' => hd d (List.mem_cons_of_mem _ hd')) l1 t1
      exact ⟨o :: os, st, by rw [Eff.bind_ret h]; rfl⟩
    rw [attempts_cons]
    rcases writeTo_cases (recording dest) (w := (log, t)) hu with ⟨⟨l1, t1⟩, h1, h2⟩ | ⟨sent, x, rest, ⟨l1, t1⟩, rfl, h1, h2⟩
    · rw [Eff.bind_ret h2]
      exact key (unread_drained hu) l1 t1 _
    · rcases h2 with ⟨⟨l2, t2⟩, h3, h5, h4⟩ | ⟨f, h3, h4⟩
      · rw [Eff.bind_threw h4]
        exact key h5 l2 t2 _
      · unfold recording at h3
        split at h3
        · cases h3
        · cases h3
        · exact absurd ‹_› (hd dest (List.mem_cons_self ..) _ _ _)

/-! ## Examples -/

/-- A putter which has room for `n` bytes, and throws afterwards. -/
def fifo (x : Byte) : Eff (Nat × List Byte) Unit := fun st =>
  match st.1 with
  | 0 => .threw st
  | n + 1 => .ret () (n, st.2 ++ [x])

example : Refuses fifo (2, []) [1#8, 2#8, 3#8, 4#8] [4#8] (0, [1#8, 2#8]) :=
  ⟨[1#8, 2#8], 3#8, _, rfl, .cons rfl (.cons rfl (.nil _)), rfl⟩

/-- The request of `f(-2, 7)` is of 4 bytes: the third one is refused. -/
example : demoKey.writeTo pc [.int (-2), .int 7] fifo (2, []) = .threw (0, [0#8, 0xff#8]) :=
  (C88_request pc_valid (pc_supported _ _) (by decide) (by decide) (demoRing_ok.2 demoRing.decls[0] (by simp [demoRing]))
    (by simp [demoKey, Val.FitsAll, Val.Fits, Safe, MinSafe, Representable, InRange]) fifo _ _).2
    ⟨[7#8], [0#8, 0xff#8], 0xfe#8, _, rfl, .cons rfl (.cons rfl (.nil _)), rfl⟩

/-- A response of 4 bytes given to putters which throw after 1 byte, then never. -/
example (b : Buf (List Byte × (Nat × List Byte))) (h : Unread b [1#8, 2#8, 3#8, 4#8]) :
    ∃ os st, attempts [fifo, fun _ => pure ()] (b, ([], (1, []))) = .ret os st := by
  refine C88_attempts_return h _ ?_ _ _
  intro dest hd x t f
  simp only [List.mem_cons, List.not_mem_nil, or_false] at hd
  rcases hd with rfl | rfl
  · unfold fifo
    split <;> simp
  · intro h; cases h

example (b b' : Buf (List Byte × (Nat × List Byte))) (h : Unread b [1#8, 2#8, 3#8, 4#8]) (log : List Byte) (t : Nat × List Byte)
    (he : attempts [fifo, fun _ => pure ()] (b, ([], (1, []))) = .ret [none, some .unit] (b', (log, t))) : log = [1#8, 2#8, 3#8, 4#8] := by
  obtain ⟨given, rest, h1, h2, _, _, _, h3⟩ := C88_attempts h _ he
  have := h3 ⟨.unit, by simp⟩
  subst this
  rw [h2, h1]
  simp

example (b b' : Buf (Nat × List Byte)) (h : Unread b [0x33#8, 0x01#8]) (w : Nat × List Byte)
    (he : Buf.reply pc storeKey 3 fifo (b, (2, [])) = .threw (b', w)) : Unread b' [] := (C88_reply pc_valid storeKey_ok h (by simp) he).1

/-- `add(300, 7)` with a putter which throws on the second byte of the response. -/
def oneByte (x : Byte) : Eff (List Byte × List (List Val) × List Byte) Unit := fun w =>
  if w.2.2.length = 0 then .ret () (w.1, w.2.1, [x]) else .threw w

theorem add_yields : Yields demoSrc (([0#8, 0x2c#8, 1#8, 7#8], [], []) : List Byte × List (List Val) × List Byte)
    (request ledRing.e ledRing.s ledRing.idxBytes 0 [.uint 2, .uint 1] [.int 300, .int 7]) ([], [], []) :=
  .cons rfl (.cons rfl (.cons rfl (.cons rfl (.nil _))))

theorem add_refused : Refuses oneByte (([], [[.int 1, .int 300, .int 7]], []) : List Byte × List (List Val) × List Byte)
    (response ledRing.e ledRing.s (some (.uint 2)) (some (.int 307))) [] ([], [[.int 1, .int 300, .int 7]], [0x33#8]) :=
  ⟨[0x33#8], 1#8, ([], [[.int 1, .int 300, .int 7]], [0x33#8]), rfl, .cons rfl (.nil _), rfl⟩

example (f : Features) : (Dispatcher.make ledRing f ledDefs).run pc (Lens.whole _) demoSrc oneByte ([0#8, 0x2c#8, 1#8, 7#8], [], []) =
    .threw ([], [[.int 1, .int 300, .int 7]], [0x33#8]) :=
  (C88_dispatcher (led_setting f) (i := 0) (by decide) (args := [.int 300, .int 7]) (by simp [ledRing, Val.FitsAll, Val.Fits]) add_yields
    (r := some (.int 307)) rfl oneByte _).2 ⟨[], add_refused⟩

example (f : Features) : ∃ b', Buf.process pc demoSrc oneByte (fresh pc ledRing f ledDefs (2 ^ 64 - 1) false, ([0#8, 0x2c#8, 1#8, 7#8], [], [])) =
    .threw (b', ([], [[.int 1, .int 300, .int 7]], [0x33#8])) ∧ Pending b' [] ∧ Unread b' [] :=
  C88_process (led_setting f) (led_start f false _) (fresh_pending _ _ _ _ _ _) (i := 0) (by decide) (args := [.int 300, .int 7])
    (by simp [ledRing, Val.FitsAll, Val.Fits]) (led_fit false _ (List.getElem_mem _)) add_yields (r := some (.int 307)) rfl add_refused

example (b : Buf (Nat × List Byte)) (h : Unread b [1#8, 2#8, 3#8, 4#8]) :
    ∃ b', Buf.writeTo fifo (b, (1, [])) = .threw (b', (0, [1#8])) ∧ Unread b' [3#8, 4#8] ∧ ∀ l, Pending b l → Pending b' l :=
  (C88_write_to h fifo (1, [])).2 _ _ ⟨[1#8], 2#8, _, rfl, .cons rfl (.nil _), rfl⟩

end Upd
