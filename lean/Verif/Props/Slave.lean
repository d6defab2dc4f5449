import Verif.Model.Slave
import Verif.Props.Session

/-!
# Interrupt-driven callee

C63: what the callee of test/snippet/slave1.cpp sends.
-/

namespace Upd
open Spec TypeList

variable {σ : Type} {Q : Platform} {K : Keyring} {f : Features} {defs : Nat → List Val → Eff σ (Option Val)} {shared : Bool}

/-- C63: the bytes sent to the caller are those of the response. Once the response has been completely sent, `on_byte_sent()` "has no effect"
(test/snippet/slave1.cpp:47-49). -/
def C63_Statement : Prop :=
  ∀ (σ : Type) (Q : Platform) (K : Keyring) (f : Features) (defs : Nat → List Val → Eff σ (Option Val)), Setting Q K f defs →
    ∀ (shared : Bool) (b : Buf (Link σ)) (up down : List Byte) (w : σ) (i : Nat) (hi : i < K.decls.length) (args : List Val)
      (r : Option Val) (w' : σ) (m : Nat),
    Reachable Q K f (hosted defs) shared (b, ⟨request K.e K.s K.idxBytes i K.decls[i].sig.params args ++ up, down, w⟩) → Pending b [] →
    Val.FitsAll (Safe Q K.s) K.decls[i].sig.params args → retSize K.decls[i].sig.ret ≤ outRoom K shared →
    defs K.decls[i].name args w = .ret r w' →
    ∃ b', slaveRun Q (List.replicate (request K.e K.s K.idxBytes i K.decls[i].sig.params args).length .received ++ List.replicate m .sent)
        (b, ⟨request K.e K.s K.idxBytes i K.decls[i].sig.params args ++ up, down, w⟩) =
      .ret () (b', ⟨up, down ++ (response K.e K.s K.decls[i].sig.ret r).take (m + 1), w'⟩)

/-- What `on_byte_sent()` really does: the first byte not sent yet is sent, or a null byte if there is none. -/
theorem C63_on_byte_sent {b : Buf (Link σ)} {out : List Byte} (h : Unread b out) (up down : List Byte) (w : σ) :
    ∃ b', onByteSent (b, ⟨up, down, w⟩) = .ret () (b', ⟨up, down ++ [out.headD 0#8], w⟩) ∧ Unread b' out.tail ∧
      ∀ l, Pending b l → Pending b' l := by
  cases out with
  | nil => exact ⟨b, Eff.bind_ret (get_empty h _), h, fun _ hl => hl⟩
  | cons x out =>
    obtain ⟨b', h1, h2, _, h4⟩ := get_cons h (⟨up, down, w⟩ : Link σ)
    refine ⟨b', Eff.bind_ret h1, h2, fun l hl => ?_⟩
    subst h4
    exact ⟨hl.next, hl.bytes⟩

/-- Successive bytes sent. -/
theorem slaveRun_sent : ∀ (m : Nat) {b : Buf (Link σ)} {out : List Byte}, Unread b out → Pending b [] → ∀ (up down : List Byte) (w : σ),
    ∃ b', slaveRun Q (List.replicate m .sent) (b, ⟨up, down, w⟩) =
        .ret () (b', ⟨up, down ++ (out ++ List.replicate (m - out.length) 0#8).take m, w⟩) ∧ Unread b' (out.drop m) ∧ Pending b' []
  | 0, b, out, h, hp, up, down, w => ⟨b, by rw [List.take_zero, List.append_nil]; rfl, h, hp⟩
  | m + 1, b, out, h, hp, up, down, w => by
    obtain ⟨b1, h1, h2, h3⟩ := C63_on_byte_sent h up down w
    obtain ⟨b2, h4, h5, h6⟩ := slaveRun_sent m h2 (h3 _ hp) up (down ++ [out.headD 0#8]) w
    refine ⟨b2, ?_, ?_, h6⟩
    · show (onByteSent >>= fun _ => slaveRun Q (List.replicate m .sent)) _ = _
      rw [Eff.bind_ret h1, h4, List.append_assoc]
      cases out with
      | nil => simp [List.replicate_succ]
      | cons x out => simp
    · cases out with
      | nil => simpa using h5
      | cons x out => simpa using h5

theorem slaveRun_append (es es' : List SlaveEvent) (st : BState (Link σ)) :
    slaveRun Q (es ++ es') st = (slaveRun Q es >>= fun _ => slaveRun Q es') st := by
  induction es generalizing st with
  | nil => rfl
  | cons e es ih =>
    show (e.run Q >>= fun _ => slaveRun Q (es ++ es')) st = ((e.run Q >>= fun _ => slaveRun Q es) >>= fun _ => slaveRun Q es') st
    cases h : e.run Q st with
    | fault g => rw [Eff.bind_fault h, Eff.bind_fault (Eff.bind_fault h)]
    | threw st' => rw [Eff.bind_threw h, Eff.bind_threw (Eff.bind_threw h)]
    | ret u st' =>
      rw [Eff.bind_ret h, ih]
      have h2 : (e.run Q >>= fun _ => slaveRun Q es) st = slaveRun Q es st' := Eff.bind_ret h
      show Eff.bind _ _ _ = Eff.bind _ _ _
      unfold Eff.bind
      rw [h2]

/-- All the bytes of a request but the last one. -/
theorem slaveRun_loading (h : Setting Q K f defs) {i : Nat} (hi : i < K.decls.length) {args : List Val}
    (hf : Val.FitsAll (Safe Q K.s) K.decls[i].sig.params args) : ∀ (m : List Byte) {l rest : List Byte} {b : Buf (Link σ)} {up down : List Byte}
      {w : σ}, Reachable Q K f (hosted defs) shared (b, ⟨m ++ up, down, w⟩) → Pending b l →
      request K.e K.s K.idxBytes i K.decls[i].sig.params args = l ++ m ++ rest → rest ≠ [] →
    ∃ b', slaveRun Q (List.replicate m.length .received) (b, ⟨m ++ up, down, w⟩) = .ret () (b', ⟨up, down, w⟩) ∧
      Reachable Q K f (hosted defs) shared (b', ⟨up, down, w⟩) ∧ Pending b' (l ++ m)
  | [], l, rest, b, up, down, w, hr, hp, _, _ => ⟨b, rfl, hr, by rw [List.append_nil]; exact hp⟩
  | x :: m, l, rest, b, up, down, w, hr, hp, hl, hne => by
    have hr1 := reachable_world hr (⟨m ++ up, down, w⟩ : Link σ)
    obtain ⟨b1, h1, h2, _⟩ := C39_loading (hosted_setting h) hr1 hi hf (l := l) (x := x) (rest := m ++ rest)
      (by rw [hl]; simp) (by simp [hne]) hp
    have hr2 := reachable_op hr1 (.put x) trivial (Eff.bind_ret h1)
    obtain ⟨b2, h3, h4, h5⟩ := slaveRun_loading h hi hf m (l := l ++ [x]) hr2 h2 (by rw [hl]; simp) hne
    refine ⟨b2, ?_, h4, by rw [List.append_assoc] at h5; exact h5⟩
    show (onByteReceived Q >>= fun _ => slaveRun Q (List.replicate m.length .received)) _ = _
    have hx : onByteReceived Q (b, (⟨x :: m ++ up, down, w⟩ : Link σ)) = .ret () (b1, ⟨m ++ up, down, w⟩) := by
      have hrd : onWorld (Link.readFromMaster (σ := σ)) (b, ⟨x :: m ++ up, down, w⟩) = .ret x (b, ⟨m ++ up, down, w⟩) := rfl
      exact (Eff.bind_ret hrd).trans (Eff.bind_ret h1)
    rw [Eff.bind_ret hx, h3]

/-- C63, whatever the number of interrupts after the last byte of the request. The bytes sent are those of the response followed by as many
null bytes as there are interrupts left. MISSING: the null bytes should not be sent (`C63_full_statement_is_false`); since sending a byte leads
to another interrupt, there is no end to them. If the function throws, so does `on_byte_received()` and nothing is sent. -/
theorem C63_one_request_partial (h : Setting Q K f defs) {b : Buf (Link σ)} {up down : List Byte} {w : σ} {i : Nat}
    (hi : i < K.decls.length) {args : List Val} (hf : Val.FitsAll (Safe Q K.s) K.decls[i].sig.params args) {req : List Byte}
    (hreq : req = request K.e K.s K.idxBytes i K.decls[i].sig.params args)
    (ho : retSize K.decls[i].sig.ret ≤ outRoom K shared) (hr : Reachable Q K f (hosted defs) shared (b, ⟨req ++ up, down, w⟩))
    (hp : Pending b []) (m : Nat) :
    match defs K.decls[i].name args w with
    | .ret r w' => ∃ b', slaveRun Q (List.replicate req.length .received ++ List.replicate m .sent) (b, ⟨req ++ up, down, w⟩) =
          .ret () (b', ⟨up, down ++ (response K.e K.s K.decls[i].sig.ret r ++
            List.replicate (m + 1 - (response K.e K.s K.decls[i].sig.ret r).length) 0#8).take (m + 1), w'⟩) ∧
        Unread b' ((response K.e K.s K.decls[i].sig.ret r).drop (m + 1)) ∧ Pending b' []
    | .threw w' => ∃ b', slaveRun Q (List.replicate req.length .received ++ List.replicate m .sent) (b, ⟨req ++ up, down, w⟩) =
          .threw (b', ⟨up, down, w'⟩)
    | .fault e => slaveRun Q (List.replicate req.length .received ++ List.replicate m .sent) (b, ⟨req ++ up, down, w⟩) = .fault e := by
  have hne : req ≠ [] := by
    intro h0
    have h1 := (idxBytes_pos h.ring.1).1
    have h2 : req.length = 0 := by rw [h0]; rfl
    rw [hreq, request, List.length_append, wireBytes_length] at h2
    have h3 : K.idxBytes = smallestUnsigned K.decls.length := rfl
    omega
  obtain ⟨l, x, hlx⟩ : ∃ l x, req = l ++ [x] := ⟨req.dropLast, req.getLast hne, (List.dropLast_concat_getLast hne).symm⟩
  have hlx' := hreq.symm.trans hlx
  have hup : req ++ up = l ++ (x :: up) := by rw [hlx]; simp
  rw [hup] at hr ⊢
  obtain ⟨b1, h1, h2, h3⟩ := slaveRun_loading h hi hf l (l := []) hr hp hlx' (by simp)
  have hr1 := reachable_world h2 (⟨up, down, w⟩ : Link σ)
  have h4 := C39_resolved (hosted_setting h) hr1 hi hf ho hlx' h3
  have hrd : onWorld (Link.readFromMaster (σ := σ)) (b1, ⟨x :: up, down, w⟩) = .ret x (b1, ⟨up, down, w⟩) := rfl
  have hev : List.replicate req.length SlaveEvent.received ++ List.replicate m .sent =
      List.replicate l.length .received ++ (.received :: List.replicate m .sent) := by
    rw [hlx, List.length_append, ← List.replicate_append_replicate, List.append_assoc]; rfl
  rw [hev, slaveRun_append, Eff.bind_ret h1]
  cases hd : defs K.decls[i].name args w with
  | fault e =>
    rw [hosted_fault (l := ⟨up, down, w⟩) hd] at h4
    exact Eff.bind_fault ((Eff.bind_ret hrd).trans (Eff.bind_fault h4))
  | threw w' =>
    rw [hosted_threw (l := ⟨up, down, w⟩) hd] at h4
    obtain ⟨b2, h5⟩ := h4
    exact ⟨b2, Eff.bind_threw ((Eff.bind_ret hrd).trans (Eff.bind_threw h5))⟩
  | ret r w' =>
    rw [hosted_ret (l := ⟨up, down, w⟩) hd] at h4
    obtain ⟨b2, h5, h6, _, h7⟩ := h4
    obtain ⟨b3, h8, h9, h10⟩ := slaveRun_sent (Q := Q) (m + 1) h7 h6 up down w'
    refine ⟨b3, ?_, h9, h10⟩
    rw [← h8]
    have hrec : onByteReceived Q (b1, (⟨x :: up, down, w⟩ : Link σ)) = onByteSent (b2, ⟨up, down, w'⟩) :=
      (Eff.bind_ret hrd).trans (Eff.bind_ret h5)
    show (onByteReceived Q >>= fun _ => slaveRun Q (List.replicate m .sent)) _ =
      (onByteSent >>= fun _ => slaveRun Q (List.replicate m .sent)) _
    show Eff.bind _ _ _ = Eff.bind _ _ _
    unfold Eff.bind
    rw [hrec]

/-- C63, as long as the response has not been completely sent. MISSING: the same thing after that. -/
theorem C63_response_partial (h : Setting Q K f defs) {b : Buf (Link σ)} {up down : List Byte} {w : σ} {i : Nat}
    (hi : i < K.decls.length) {args : List Val} (hf : Val.FitsAll (Safe Q K.s) K.decls[i].sig.params args) {req : List Byte}
    (hreq : req = request K.e K.s K.idxBytes i K.decls[i].sig.params args)
    (ho : retSize K.decls[i].sig.ret ≤ outRoom K shared) (hr : Reachable Q K f (hosted defs) shared (b, ⟨req ++ up, down, w⟩))
    (hp : Pending b []) {r : Option Val} {w' : σ} (hd : defs K.decls[i].name args w = .ret r w') {m : Nat}
    (hm : m < (response K.e K.s K.decls[i].sig.ret r).length) :
    ∃ b', slaveRun Q (List.replicate req.length .received ++ List.replicate m .sent) (b, ⟨req ++ up, down, w⟩) =
      .ret () (b', ⟨up, down ++ (response K.e K.s K.decls[i].sig.ret r).take (m + 1), w'⟩) := by
  have h1 := C63_one_request_partial h hi hf hreq ho hr hp m
  rw [hd] at h1
  obtain ⟨b', h2, _⟩ := h1
  refine ⟨b', ?_⟩
  rw [h2, List.take_append_of_le_length (by omega)]

theorem slaveRun_index (h : Setting Q K f defs) : ∀ (m : List Byte) {l : List Byte} {b : Buf (Link σ)} {up down : List Byte} {w : σ},
    Reachable Q K f (hosted defs) shared (b, ⟨m ++ up, down, w⟩) → Pending b l → l.length + m.length < K.idxBytes →
    ∃ b', slaveRun Q (List.replicate m.length .received) (b, ⟨m ++ up, down, w⟩) = .ret () (b', ⟨up, down, w⟩) ∧
      Reachable Q K f (hosted defs) shared (b', ⟨up, down, w⟩) ∧ Pending b' (l ++ m)
  | [], l, b, up, down, w, hr, hp, _ => ⟨b, rfl, hr, by rw [List.append_nil]; exact hp⟩
  | x :: m, l, b, up, down, w, hr, hp, hl => by
    have hr1 := reachable_world hr (⟨m ++ up, down, w⟩ : Link σ)
    simp only [List.length_cons] at hl
    obtain ⟨b1, h1, h2⟩ := C40_loading (hosted_setting h) hr1 (l := l) (x := x) (by omega) hp
    have hr2 := reachable_op hr1 (.put x) trivial (Eff.bind_ret h1)
    obtain ⟨b2, h3, h4, h5⟩ := slaveRun_index h m (l := l ++ [x]) hr2 h2 (by simp; omega)
    refine ⟨b2, ?_, h4, by rw [List.append_assoc] at h5; exact h5⟩
    show (onByteReceived Q >>= fun _ => slaveRun Q (List.replicate m.length .received)) _ = _
    have hx : onByteReceived Q (b, (⟨x :: m ++ up, down, w⟩ : Link σ)) = .ret () (b1, ⟨m ++ up, down, w⟩) := by
      have hrd : onWorld (Link.readFromMaster (σ := σ)) (b, ⟨x :: m ++ up, down, w⟩) = .ret x (b, ⟨m ++ up, down, w⟩) := rfl
      exact (Eff.bind_ret hrd).trans (Eff.bind_ret h1)
    rw [Eff.bind_ret hx, h3]

/-- C63, bytes which are not the index of a function: nothing is sent, no function is called, and the next byte begins a packet. -/
theorem C63_dropped (h : Setting Q K f defs) {b : Buf (Link σ)} {index up down : List Byte} {w : σ} (hl : index.length = K.idxBytes)
    (hi : K.decls.length ≤ wireValue K.e index) (hr : Reachable Q K f (hosted defs) shared (b, ⟨index ++ up, down, w⟩)) (hp : Pending b []) :
    ∃ b', slaveRun Q (List.replicate index.length .received) (b, ⟨index ++ up, down, w⟩) = .ret () (b', ⟨up, down, w⟩) ∧ Pending b' [] := by
  have hpos := (idxBytes_pos h.ring.1).1
  have hne : index ≠ [] := by
    intro h0
    rw [h0] at hl
    have h3 : K.idxBytes = smallestUnsigned K.decls.length := rfl
    simp only [List.length_nil] at hl
    omega
  obtain ⟨l, x, rfl⟩ : ∃ l x, index = l ++ [x] := ⟨index.dropLast, index.getLast hne, (List.dropLast_concat_getLast hne).symm⟩
  have hup : l ++ [x] ++ up = l ++ (x :: up) := by simp
  rw [hup] at hr ⊢
  have hl' : l.length + 1 = K.idxBytes := by simpa using hl
  obtain ⟨b1, h1, h2, h3⟩ := slaveRun_index h l (l := []) hr hp (by simp; omega)
  have hr1 := reachable_world h2 (⟨up, down, w⟩ : Link σ)
  obtain ⟨b2, h4, h5, _⟩ := C40_dropped (hosted_setting h) hr1 hl' hi h3
  have hrd : onWorld (Link.readFromMaster (σ := σ)) (b1, ⟨x :: up, down, w⟩) = .ret x (b1, ⟨up, down, w⟩) := rfl
  have hev : List.replicate (l ++ [x]).length SlaveEvent.received = List.replicate l.length .received ++ [.received] := by
    rw [List.length_append, ← List.replicate_append_replicate]; rfl
  rw [hev, slaveRun_append, Eff.bind_ret h1]
  refine ⟨b2, ?_, h5⟩
  show (onByteReceived Q >>= fun _ => slaveRun Q []) _ = _
  exact Eff.bind_ret ((Eff.bind_ret hrd).trans (Eff.bind_ret h4))

/-- A function which returns nothing: a null byte is sent in the end, as if it were a response. -/
theorem C63_full_statement_is_false : ¬ C63_Statement := by
  intro h
  have hi : 1 < ledRing.decls.length := by decide
  obtain ⟨b', h1⟩ := h _ pc ledRing .any ledDefs (led_setting .any) false (fresh pc ledRing .any (hosted ledDefs) 255 false) [] []
    ([], [], []) 1 hi [] none ([], [[.int 2]], []) 0 ⟨255, _, .start⟩ (fresh_pending _ _ _ _ _ _)
    (by simp [ledRing, Val.FitsAll]) (Nat.zero_le _) rfl
  have h2 := C63_one_request_partial (led_setting .any) (shared := false) (b := fresh pc ledRing .any (hosted ledDefs) 255 false)
    (up := []) (down := []) (w := ([], [], [])) hi (args := [])
    (by simp [ledRing, Val.FitsAll]) rfl (Nat.zero_le _) ⟨255, _, .start⟩ (fresh_pending _ _ _ _ _ _) 0
  rw [show ledDefs ledRing.decls[1].name [] ([], [], []) = .ret none ([], [[.int 2]], []) from rfl] at h2
  obtain ⟨b2, h3, _⟩ := h2
  rw [h1] at h3
  injection h3 with _ h3
  injection h3 with _ h3
  injection h3 with _ h3 _
  have h4 : ([] : List Byte) = [0#8] := h3
  cases h4

/-! Example: the response to the first function, in two bytes, and three interrupts in excess. -/

example : ∃ b', slaveRun pc (List.replicate 4 .received ++ List.replicate 4 .sent)
      (fresh pc ledRing .any (hosted ledDefs) 255 false, ⟨[0#8, 0x2C#8, 0x01#8, 7#8], [], ([], [], [])⟩) =
    .ret () (b', ⟨[], [0x33#8, 0x01#8, 0#8, 0#8, 0#8],
      ([], [[.int 1, .int 300, .int 7]], [])⟩) := by
  have h := C63_one_request_partial (led_setting .any) (shared := false) (b := fresh pc ledRing .any (hosted ledDefs) 255 false)
    (up := []) (down := []) (w := ([], [], [])) (i := 0) (by decide) (args := [.int 300, .int 7])
    (by simp [ledRing, Val.FitsAll, Val.Fits]) rfl (by decide) ⟨255, _, .start⟩ (fresh_pending _ _ _ _ _ _) 4
  rw [show ledDefs ledRing.decls[0].name [.int 300, .int 7] ([], [], []) = .ret (some (.int 307)) ([], [[.int 1, .int 300, .int 7]], []) from rfl] at h
  exact h.imp fun _ h => h.1

example : ∃ b', slaveRun pc (List.replicate 4 .received ++ List.replicate 1 .sent)
      (fresh pc ledRing .any (hosted ledDefs) 255 false, ⟨[0#8, 0x2C#8, 0x01#8, 7#8], [], ([], [], [])⟩) =
    .ret () (b', ⟨[], [0x33#8, 0x01#8], ([], [[.int 1, .int 300, .int 7]], [])⟩) :=
  C63_response_partial (led_setting .any) (shared := false) (b := fresh pc ledRing .any (hosted ledDefs) 255 false)
    (up := []) (down := []) (w := ([], [], [])) (i := 0) (by decide) (args := [.int 300, .int 7])
    (by simp [ledRing, Val.FitsAll, Val.Fits]) rfl (by decide) ⟨255, _, .start⟩ (fresh_pending _ _ _ _ _ _)
    (r := some (.int 307)) (w' := ([], [[.int 1, .int 300, .int 7]], [])) rfl (m := 1) (by decide)

example (b : Buf (Link Unit)) (h : Unread b [0x33#8, 0x01#8]) (hp : Pending b [7#8]) :
    ∃ b', onByteSent (b, ⟨[], [9#8], ()⟩) = .ret () (b', ⟨[], [9#8, 0x33#8], ()⟩) ∧ Unread b' [0x01#8] ∧ Pending b' [7#8] := by
  obtain ⟨b', h1, h2, h3⟩ := C63_on_byte_sent h [] [9#8] ()
  exact ⟨b', h1, h2, h3 _ hp⟩

example : ∃ b', slaveRun pc (List.replicate 1 .received) (fresh pc ledRing .any (hosted ledDefs) 255 false, ⟨[9#8, 1#8], [], ([], [], [])⟩) =
    .ret () (b', ⟨[1#8], [], ([], [], [])⟩) ∧ Pending b' [] :=
  C63_dropped (led_setting .any) (shared := false) (index := [9#8]) (up := [1#8]) rfl (by decide) ⟨255, _, .start⟩ (fresh_pending _ _ _ _ _ _)

end Upd
