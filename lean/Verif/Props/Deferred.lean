import Verif.Lemmas.Deferred
import Verif.Props.Session

/-!
# Deferred responses

C62: in non-blocking mode, the callback hooked to a request is called once on what the remote function returned, whether the response comes
as such (`write_to`) or in a request of the callee (`reply`). `P` is the platform of the caller and `Q` the one of the callee.
-/

namespace Upd
open Spec TypeList

variable {σ : Type} {P Q : Platform} {K : Keyring} {f : Features} {defs : Nat → List Val → Eff σ (Option Val)} {shared : Bool}

/-- C62, `action = key.with_hook(hook); ... action(read_byte_from_slave)`, buffered dispatcher. Any sequence of such calls has the outcome of
local calls, each of them followed by a call of its hook on what it returned: same effects in the same order, same exceptions. -/
theorem C62_hooked (hP : P.Valid) (hs : Supported P K.e K.s) (hQ : Setting Q K f defs)
    (ht : ∀ d ∈ K.decls, WellTyped P K.s ⟨d.sig, defs d.name⟩) (ho : ResponsesFit K shared) {calls : List (Nat × List Val × Callback σ)}
    (hc : CallsOk P Q K (withoutHooks calls)) (hh : HooksOk P K calls) {b : Buf (Link σ)} {w : σ}
    (hr : Reachable Q K f (hosted defs) shared (b, ⟨[], [], w⟩)) (hp : Pending b []) :
    match localHooked defs calls w with
    | .ret _ w' => ∃ b', hookedCalls P K Link.beside (serveBuffered Q) calls (b, ⟨[], [], w⟩) = .ret () (b', ⟨[], [], w'⟩) ∧
        Reachable Q K f (hosted defs) shared (b', ⟨[], [], w'⟩) ∧ Pending b' []
    | .threw w' => ∃ b', hookedCalls P K Link.beside (serveBuffered Q) calls (b, ⟨[], [], w⟩) = .threw (b', ⟨[], [], w'⟩)
    | .fault f => hookedCalls P K Link.beside (serveBuffered Q) calls (b, ⟨[], [], w⟩) = .fault f := by
  have h := hooked_server hP hQ.ring hs ht (buffered_server hQ ho) calls w (b, ⟨[], [], w⟩) hc hh ⟨hr, hp⟩ rfl
  cases hl : localHooked defs calls w with
  | fault e => rw [hl] at h; exact h
  | threw w' =>
    rw [hl] at h
    obtain ⟨⟨b', l⟩, h1, h2⟩ := h
    have h2 : l = _ := h2
    subst h2
    exact ⟨b', h1⟩
  | ret rs w' =>
    rw [hl] at h
    obtain ⟨⟨b', l⟩, h1, h2, h3⟩ := h
    have h3 : l = _ := h3
    subst h3
    exact ⟨b', h1, h2⟩

/-- C62, same thing, unbuffered dispatcher. -/
theorem C62_hooked_unbuffered (hP : P.Valid) (hQ : Q.Valid) (hK : KeyringOk K) (hsP : Supported P K.e K.s) (hsQ : Supported Q K.e K.s)
    (htP : ∀ d ∈ K.decls, WellTyped P K.s ⟨d.sig, defs d.name⟩) (htQ : ∀ d ∈ K.decls, WellTyped Q K.s ⟨d.sig, defs d.name⟩)
    {calls : List (Nat × List Val × Callback σ)} (hc : CallsOk P Q K (withoutHooks calls)) (hh : HooksOk P K calls) (f : Features) (w : σ) :
    hookedCalls P K (Lens.whole _) (serveUnbuffered Q (Dispatcher.make K f (hosted defs))) calls ⟨[], [], w⟩ =
      match localHooked defs calls w with
      | .ret _ w' => .ret () ⟨[], [], w'⟩
      | .threw w' => .threw ⟨[], [], w'⟩
      | .fault f => .fault f := by
  have h := hooked_server hP hK hsP htP (unbuffered_server (f := f) hQ hK hsQ htQ) calls w ⟨[], [], w⟩ hc hh trivial rfl
  cases hl : localHooked defs calls w with
  | fault e => rw [hl] at h; exact h
  | threw w' =>
    rw [hl] at h
    obtain ⟨l, h1, h2⟩ := h
    have h2 : l = _ := h2
    subst h2
    exact h1
  | ret rs w' =>
    rw [hl] at h
    obtain ⟨l, h1, _, h3⟩ := h
    have h3 : l = _ := h3
    subst h3
    exact h1

/-- C62, with `reply`. The caller and the callee both have a buffered dispatcher, between two packets. The callee replies with the key of the
`j`-th function of the keyring `KR` of the caller, which takes an array of `n` bytes, large enough for the response, and invokes on it the
action made from the key `k` and the hook. The outcome is the one of a local call followed by a call of the hook on what it returned; then no
byte is left in transit, and both dispatchers are ready for the next packets. -/
theorem C62_replied (hP : P.Valid) (hs : Supported P K.e K.s) (hQ : Setting Q K f defs)
    (ht : ∀ d ∈ K.decls, WellTyped P K.s ⟨d.sig, defs d.name⟩) {KR : Keyring} {fR : Features} {defsR : Nat → List Val → Eff σ (Option Val)}
    {sharedR : Bool} (hR : Setting P KR fR defsR) (hsR : Supported Q KR.e KR.s) {i : Nat} (hi : i < K.decls.length)
    (ho : retSize K.decls[i].sig.ret ≤ outRoom K shared) {k : Key} (hk : k = ⟨K.e, K.s, K.idxBytes, i, K.decls[i].sig⟩) {args : List Val}
    (hfP : Val.FitsAll (Safe P K.s) k.sig.params args) (hfQ : Val.FitsAll (Safe Q K.s) k.sig.params args) {j : Nat}
    (hj : j < KR.decls.length) {n : Nat} (hn : 1 ≤ n) (hsig : KR.decls[j].sig = ⟨[.arr (.uint 1) n], none⟩) {kR : Key}
    (hkR : kR = ⟨KR.e, KR.s, KR.idxBytes, j, KR.decls[j].sig⟩) (hlen : retSize k.sig.ret ≤ n) {hook : Callback σ}
    (hh : Hookable P K.s k.sig.ret hook) (hfn : defsR KR.decls[j].name = replyFn P (k.withHook hook)) {a b : Buf (Link σ)} {w : σ}
    (hb : Reachable Q K f (hosted defs) shared (b, ⟨[], [], w⟩)) (hpb : Pending b [])
    (ha : Reachable P KR fR (hosted defsR) sharedR (a, ⟨[], [], w⟩)) (hpa : Pending a []) :
    match (defs K.decls[i].name args >>= fun r => hook.fn r.toList) w with
    | .ret _ w' => ∃ a' b', repliedCall P Q k args kR n ⟨a, b, ⟨[], [], w⟩⟩ = .ret true ⟨a', b', ⟨[], [], w'⟩⟩ ∧
        Reachable Q K f (hosted defs) shared (b', ⟨[], [], w'⟩) ∧ Pending b' [] ∧ Unread b' [] ∧
        Reachable P KR fR (hosted defsR) sharedR (a', ⟨[], [], w'⟩) ∧ Pending a' []
    | .threw w' => ∃ a' b', repliedCall P Q k args kR n ⟨a, b, ⟨[], [], w⟩⟩ = .threw ⟨a', b', ⟨[], [], w'⟩⟩
    | .fault e => repliedCall P Q k args kR n ⟨a, b, ⟨[], [], w⟩⟩ = .fault e := by
  subst hk hkR
  have hK := hQ.ring
  have h1 := send_request hP hK hs hi hfP (L := Duo.onLink) (t := ⟨a, b, ⟨[], [], w⟩⟩) (up := []) (down := []) (w := w) rfl
  rw [List.nil_append] at h1
  have h2 := readFrom_request (hosted_setting hQ) (reachable_world hb ⟨request K.e K.s K.idxBytes i K.decls[i].sig.params args ++ [], [], w⟩)
    hpb hi hfQ ho (yields_up _ [] [] w)
  rw [List.append_nil] at h2
  have hdef : repliedCall P Q ⟨K.e, K.s, K.idxBytes, i, K.decls[i].sig⟩ args ⟨KR.e, KR.s, KR.idxBytes, j, KR.decls[j].sig⟩ n ⟨a, b, ⟨[], [], w⟩⟩ =
      (Eff.zoom Duo.atCallee (Buf.readFrom Q Link.readFromMaster) >>= fun _ =>
        Eff.zoom Duo.atCallee (Buf.reply Q ⟨KR.e, KR.s, KR.idxBytes, j, KR.decls[j].sig⟩ n Link.writeToMaster) >>= fun ok =>
        Eff.zoom Duo.atCaller (Buf.readFrom P Link.readFromSlave) >>= fun _ => pure ok)
        (⟨a, b, ⟨request K.e K.s K.idxBytes i K.decls[i].sig.params args, [], w⟩⟩ : Duo σ) := Eff.bind_ret h1
  rw [hdef]
  cases hd : defs K.decls[i].name args w with
  | fault e =>
    rw [hosted_fault (l := ⟨[], [], w⟩) hd] at h2
    rw [Eff.bind_fault hd]
    exact Eff.bind_fault (zoom_fault (L := Duo.atCallee) h2)
  | threw w1 =>
    rw [hosted_threw (l := ⟨[], [], w⟩) hd] at h2
    obtain ⟨b1, h2⟩ := h2
    rw [Eff.bind_threw hd]
    have h3 := zoom_threw (L := Duo.atCallee)
      (w := (⟨a, b, ⟨request K.e K.s K.idxBytes i K.decls[i].sig.params args, [], w⟩⟩ : Duo σ)) h2
    exact ⟨a, b1, Eff.bind_threw h3⟩
  | ret r w1 =>
    rw [hosted_ret (l := ⟨[], [], w⟩) hd] at h2
    obtain ⟨b1, h2, h3, h4, h5⟩ := h2
    have h2 : Buf.readFrom Q Link.readFromMaster (b, ⟨request K.e K.s K.idxBytes i K.decls[i].sig.params args, [], w⟩) =
      .ret .resolved (b1, ⟨[], [], w1⟩) := h2
    have hr := ht _ (List.getElem_mem hi) _ _ _ _ hfP hd
    have hrl : (response K.e K.s K.decls[i].sig.ret r).length ≤ n := by
      rw [response_length (hK.2 _ (List.getElem_mem hi)) hr]; exact hlen
    have hkR : ReplyKey Q ⟨KR.e, KR.s, KR.idxBytes, j, KR.decls[j].sig⟩ n :=
      ⟨hsR, (idxBytes_pos hR.ring.1).1, Nat.lt_trans hj (idxBytes_pos hR.ring.1).2, by rw [hsig], hn⟩
    obtain ⟨junk, hjl, h6⟩ := C49_reply hQ.valid hkR h4 h5 hrl
    obtain ⟨b2, h7, h8, h9⟩ := h6 Link.writeToMaster ⟨[], [], w1⟩ _ (accepts_down _ _ _ _)
    rw [List.nil_append] at h7
    have hfit : Val.FitsAll (Safe P KR.s) KR.decls[j].sig.params
        [.arr ((response K.e K.s K.decls[i].sig.ret r ++ junk).map fun x => .int x.toNat)] := by
      rw [hsig]; exact bytes_fit (by rw [List.length_append]; omega)
    have h10 := readFrom_request (hosted_setting hR) (reachable_world ha ⟨[], request KR.e KR.s KR.idxBytes j KR.decls[j].sig.params
      [.arr ((response K.e K.s K.decls[i].sig.ret r ++ junk).map fun x => .int x.toNat)] ++ [], w1⟩) hpa hj hfit
      (by rw [hsig]; exact Nat.zero_le _) (yields_down _ [] [] w1)
    rw [List.append_nil] at h10
    have hb1 := reachable_op (reachable_world hb ⟨request K.e K.s K.idxBytes i K.decls[i].sig.params args, [], w⟩) (.readFrom Link.readFromMaster)
      trivial (Eff.bind_ret h2)
    have hb2 := reachable_op hb1 (.reply ⟨KR.e, KR.s, KR.idxBytes, j, KR.decls[j].sig⟩ n Link.writeToMaster) hkR (Eff.bind_ret h7)
    have h11 := replyFn_eq hP (k := ⟨K.e, K.s, K.idxBytes, i, K.decls[i].sig⟩) hs hh hr junk w1
    rw [← hfn] at h11
    rw [Eff.bind_ret hd, Eff.bind_ret (zoom_ret (L := Duo.atCallee) h2), Eff.bind_ret (zoom_ret (L := Duo.atCallee) h7)]
    cases hd2 : hook.fn r.toList w1 with
    | fault e =>
      rw [hd2] at h11
      rw [hosted_fault (l := ⟨[], [], w1⟩) h11] at h10
      exact Eff.bind_fault (zoom_fault (L := Duo.atCaller) h10)
    | threw w2 =>
      rw [hd2] at h11
      rw [hosted_threw (l := ⟨[], [], w1⟩) h11] at h10
      obtain ⟨a1, h10⟩ := h10
      have h12 := zoom_threw (L := Duo.atCaller) (w := (⟨a, b2, ⟨[], _, w1⟩⟩ : Duo σ)) h10
      exact ⟨a1, b2, Eff.bind_threw h12⟩
    | ret v w2 =>
      rw [hd2] at h11
      rw [hosted_ret (l := ⟨[], [], w1⟩) h11] at h10
      obtain ⟨a1, h10, h12, _⟩ := h10
      have h13 := zoom_ret (L := Duo.atCaller) (w := (⟨a, b2, ⟨[], _, w1⟩⟩ : Duo σ)) h10
      refine ⟨a1, b2, Eff.bind_ret h13, reachable_world hb2 _, h9 _ h3, h8, ?_, h12⟩
      exact reachable_op (reachable_world ha _) (.readFrom Link.readFromSlave) trivial (Eff.bind_ret h10)

/-! Examples: the caller is a microcontroller, the callee a computer. -/

/-- A hook for the first function of `ledRing`, which logs its argument. -/
def ledHook : Callback (List Byte × List (List Val) × List Byte) :=
  ⟨⟨[.uint 2], none⟩, fun args w => .ret none (w.1, w.2.1 ++ [.int 99 :: args], w.2.2)⟩

theorem ledHook_ok : Hookable avr ledRing.s (some (.uint 2)) ledHook where
  params := rfl
  sig := by simp [ledHook, SigOk, Ty.WFs, Ty.WF, PackedAll, Packed]
  typed := by
    intro args w r w' _ h
    injection h with h _
    subst h
    trivial

/-- Two calls with the same hook. -/
def ledHooked : List (Nat × List Val × Callback (List Byte × List (List Val) × List Byte)) :=
  [(1, [.int 300, .int 7], ledHook), (1, [.int 1, .int 2], ledHook)]

theorem ledHooked_ok : CallsOk avr pc ledRing (withoutHooks ledHooked) ∧ HooksOk avr ledRing ledHooked := by
  constructor
  · simp [CallsOk, withoutHooks, ledHooked, ledRing, Val.FitsAll, Val.Fits]
  · intro c hc d hd hn
    have hcn : c.1 = 1 ∧ c.2.2 = ledHook := by
      simp only [ledHooked, List.mem_cons, List.not_mem_nil, or_false] at hc
      rcases hc with rfl | rfl <;> exact ⟨rfl, rfl⟩
    rw [hcn.1] at hn
    rw [hcn.2]
    simp only [ledRing, List.mem_cons, List.not_mem_nil, or_false] at hd
    rcases hd with rfl | rfl | rfl
    · exact ledHook_ok
    · cases hn
    · cases hn

theorem ledHooked_local : localHooked ledDefs ledHooked ([], [], []) =
    .ret () ([], [[.int 1, .int 300, .int 7], [.int 99, .int 307], [.int 1, .int 1, .int 2], [.int 99, .int 3]], []) := rfl

example : ∃ b', hookedCalls avr ledRing Link.beside (serveBuffered pc) ledHooked
      (fresh pc ledRing .any (hosted ledDefs) 255 true, ⟨[], [], ([], [], [])⟩) =
    .ret () (b', ⟨[], [], ([], [[.int 1, .int 300, .int 7], [.int 99, .int 307], [.int 1, .int 1, .int 2], [.int 99, .int 3]], [])⟩) := by
  have h := C62_hooked avr_valid (avr_supported _ _) (led_setting .any) led_typed_avr (led_fit true) ledHooked_ok.1 ledHooked_ok.2
    (w := ([], [], [])) ⟨255, _, .start⟩ (fresh_pending _ _ _ _ _ _)
  rw [ledHooked_local] at h
  exact h.imp fun _ h => h.1

example : hookedCalls avr ledRing (Lens.whole _) (serveUnbuffered pc (Dispatcher.make ledRing .any (hosted ledDefs))) ledHooked
      ⟨[], [], ([], [], [])⟩ =
    .ret () ⟨[], [], ([], [[.int 1, .int 300, .int 7], [.int 99, .int 307], [.int 1, .int 1, .int 2], [.int 99, .int 3]], [])⟩ := by
  rw [C62_hooked_unbuffered avr_valid pc_valid ledRing_ok (avr_supported _ _) (pc_supported _ _) led_typed_avr (led_setting .any).typed
    ledHooked_ok.1 ledHooked_ok.2 .any, ledHooked_local]

/-- Key of the first function of `ledRing`. -/
def ledKey : Key := ⟨.little, .twosComplement, 1, 0, [.uint 2, .uint 1], some (.uint 2)⟩
/-- The keyring of the caller. -/
def replyRing : Keyring := ⟨.big, .twosComplement, [⟨6, [.uint 1], none⟩, ⟨7, [.arr (.uint 1) 5], none⟩]⟩
/-- Definitions of its functions. -/
def replyDefs : Nat → List Val → Eff (List Byte × List (List Val) × List Byte) (Option Val) := fun name =>
  if name = 7 then replyFn avr (ledKey.withHook ledHook) else fun _ w => .ret none w

theorem reply_setting : Setting avr replyRing .any replyDefs where
  valid := avr_valid
  ring := by refine ⟨by decide, ?_⟩; simp [replyRing, SigOk, Ty.WFs, Ty.WF, PackedAll, Packed, Ty.sizeof, wireSize]
  sup := avr_supported _ _
  sizes := by simp [replyRing, Ty.sizeof, wireSize]
  typed := by
    simp only [replyRing, List.mem_cons, List.not_mem_nil, or_false, forall_eq_or_imp, forall_eq]
    constructor
    · intro args w r w' _ h
      injection h with h _
      subst h
      trivial
    · intro args w r w' _ h
      have h : replyFn avr (ledKey.withHook ledHook) args w = .ret r w' := h
      unfold replyFn at h
      split at h
      · split at h
        · injection h with h _; subst h; trivial
        · cases h
        · cases h
      · cases h

example : ∃ a' b', repliedCall avr pc ledKey [.int 300, .int 7] ⟨.big, .twosComplement, 1, 1, [.arr (.uint 1) 5], none⟩ 5
      ⟨fresh avr replyRing .any (hosted replyDefs) 65535 false, fresh pc ledRing .any (hosted ledDefs) 255 true, ⟨[], [], ([], [], [])⟩⟩ =
    .ret true ⟨a', b', ⟨[], [], ([], [[.int 1, .int 300, .int 7], [.int 99, .int 307]], [])⟩⟩ := by
  have h := C62_replied avr_valid (avr_supported _ _) (led_setting .any) led_typed_avr reply_setting (pc_supported _ _) (i := 0) (by decide)
    (led_fit true _ (List.getElem_mem _)) (k := ledKey) rfl (args := [.int 300, .int 7]) (by simp [ledKey, Val.FitsAll, Val.Fits])
    (by simp [ledKey, Val.FitsAll, Val.Fits]) (j := 1) (by decide) (n := 5) (by decide) rfl rfl (by decide) ledHook_ok rfl
    (w := ([], [], [])) ⟨255, _, .start⟩ (fresh_pending _ _ _ _ _ _) (sharedR := false) ⟨65535, _, .start⟩ (fresh_pending _ _ _ _ _ _)
  obtain ⟨a', b', h, _⟩ := h
  exact ⟨a', b', h⟩

end Upd
