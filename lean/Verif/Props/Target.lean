import Verif.Lemmas.Target
import Verif.Props.Session
import Verif.Props.Framing
import Verif.Lemmas.Faults

/-!
# Headers compiled for different targets

C94: the programs of two devices include the same header. `T` is the target of the caller and `U` the one of the callee.
-/

namespace Upd
open Spec

variable {σ : Type} {T U : Target} {H : Header} {f : Features} {defs : Nat → List Val → Eff σ (Option Val)} {shared : Bool}

/-- C94, if the types which the header names are the same on both targets, buffered dispatcher: remote calls, one after the other or all sent at once, have the outcome of
local calls. -/
theorem C94_agree (ha : HeaderAgree T U H) (hT : T.plat.Valid) (hs : Supported T.plat H.e H.s) (hK : KeyringOk (H.on T))
    (hQ : Setting U.plat (H.on U) f defs) (ht : ∀ d ∈ (H.on T).decls, WellTyped T.plat H.s ⟨d.sig, defs d.name⟩) (ho : ResponsesFit (H.on U) shared)
    {calls : List (Nat × List Val)} (hc : PeersOk T U H calls) {b : Buf (Link σ)} {w : σ}
    (hr : Reachable U.plat (H.on U) f (hosted defs) shared (b, ⟨[], [], w⟩)) (hp : Pending b []) :
    match localCalls defs calls w with
    | .ret rs w' => (∃ b', blockingCalls T.plat (H.on T) Link.beside (serveBuffered U.plat) calls (b, ⟨[], [], w⟩) = .ret rs (b', ⟨[], [], w'⟩) ∧
          Reachable U.plat (H.on U) f (hosted defs) shared (b', ⟨[], [], w'⟩) ∧ Pending b' []) ∧
        ∃ b', pipelinedCalls T.plat (H.on T) Link.beside (serveBuffered U.plat) calls (b, ⟨[], [], w⟩) = .ret rs (b', ⟨[], [], w'⟩) ∧
          Reachable U.plat (H.on U) f (hosted defs) shared (b', ⟨[], [], w'⟩) ∧ Pending b' []
    | .threw w' => (∃ b', blockingCalls T.plat (H.on T) Link.beside (serveBuffered U.plat) calls (b, ⟨[], [], w⟩) = .threw (b', ⟨[], [], w'⟩)) ∧
        ∃ b' l, pipelinedCalls T.plat (H.on T) Link.beside (serveBuffered U.plat) calls (b, ⟨[], [], w⟩) = .threw (b', l) ∧ l.world = w'
    | .fault f => blockingCalls T.plat (H.on T) Link.beside (serveBuffered U.plat) calls (b, ⟨[], [], w⟩) = .fault f ∧
        pipelinedCalls T.plat (H.on T) Link.beside (serveBuffered U.plat) calls (b, ⟨[], [], w⟩) = .fault f := by
  have hS := Server.alike (ringAlike_of_agree ha) (buffered_server hQ ho)
  have hc' := calls_of_peers ha hc
  have h := blocking_server hT hK hs ht hS calls w (b, ⟨[], [], w⟩) hc' ⟨hr, hp⟩ rfl
  have h' := pipelined_server (t := (b, ⟨[], [], w⟩)) hT hK hs ht hS hc' ⟨hr, hp⟩ rfl
  cases hl : localCalls defs calls w with
  | fault e => rw [hl] at h h'; exact ⟨h, h'⟩
  | threw w' =>
    rw [hl] at h h'
    obtain ⟨⟨b', l⟩, h1, h2⟩ := h
    have h2 : l = _ := h2
    subst h2
    obtain ⟨⟨b'', l⟩, h3, h4⟩ := h'
    exact ⟨⟨b', h1⟩, b'', l, h3, h4⟩
  | ret rs w' =>
    rw [hl] at h h'
    obtain ⟨⟨b', l⟩, h1, h2, h3⟩ := h
    have h3 : l = _ := h3
    subst h3
    obtain ⟨⟨b'', l⟩, h4, h5, h6⟩ := h'
    have h6 : l = _ := h6
    subst h6
    exact ⟨⟨b', h1, h2⟩, b'', h4, h5⟩

/-- C94, if the types which the header names are the same on both targets, unbuffered dispatcher. -/
theorem C94_agree_unbuffered (ha : HeaderAgree T U H) (hT : T.plat.Valid) (hU : U.plat.Valid) (hsT : Supported T.plat H.e H.s)
    (hsU : Supported U.plat H.e H.s) (hK : KeyringOk (H.on T)) (hK' : KeyringOk (H.on U))
    (htT : ∀ d ∈ (H.on T).decls, WellTyped T.plat H.s ⟨d.sig, defs d.name⟩) (htU : ∀ d ∈ (H.on U).decls, WellTyped U.plat H.s ⟨d.sig, defs d.name⟩)
    {calls : List (Nat × List Val)} (hc : PeersOk T U H calls) (f : Features) (w : σ) :
    blockingCalls T.plat (H.on T) (Lens.whole _) (serveUnbuffered U.plat (Dispatcher.make (H.on U) f (hosted defs))) calls ⟨[], [], w⟩ =
      match localCalls defs calls w with
      | .ret rs w' => .ret rs ⟨[], [], w'⟩
      | .threw w' => .threw ⟨[], [], w'⟩
      | .fault f => .fault f := by
  have hS := Server.alike (ringAlike_of_agree ha) (unbuffered_server (f := f) (defs := defs) hU hK' hsU htU)
  have h := blocking_server hT hK hsT htT hS calls w (⟨[], [], w⟩ : Link σ) (calls_of_peers ha hc) trivial rfl
  cases hl : localCalls defs calls w with
  | fault e => rw [hl] at h; exact h
  | threw w' =>
    rw [hl] at h
    obtain ⟨l, h1, h2⟩ := h
    have h2 : l = _ := h2
    subst h2
    exact h1
  | ret rs w' =>
    rw [hl] at h
    obtain ⟨l, h1, _, h2⟩ := h
    have h2 : l = _ := h2
    subst h2
    exact h1

theorem smallTarget_valid : (smallTarget pc).Valid :=
  ⟨⟨by decide, by decide, by simp [smallTarget, pc], by simp [smallTarget, pc]⟩, by decide, by decide, by decide, by decide, by decide, by decide, fun _ => Nat.le_refl 1⟩

theorem largeTarget_valid : (largeTarget pc).Valid :=
  ⟨⟨by decide, by decide, by simp [largeTarget, pc], by simp [largeTarget, pc]⟩, by decide, by decide, by decide, by decide, by decide, by decide, fun _ => Nat.le_refl 1⟩

/-- C94, exactly which headers name types which are the same on all targets: those which only name `bool`, `signed char`, `unsigned char`, `long long`, the types of
`<cstdint>` which have their size in their names, and the arrays and classes made of these. -/
theorem C94_portable (H : Header) : (∀ T U : Target, T.Valid → U.Valid → HeaderAgree T U H) ↔
    ∀ d ∈ H.decls, PortableAll d.params ∧ ∀ t, d.ret = some t → Portable t := by
  constructor
  · intro h d hd
    have := h _ _ smallTarget_valid largeTarget_valid d hd
    exact ⟨portableAll_of_agree this.1, fun t ht => portable_of_agree (this.2 t ht)⟩
  · intro h T U _ _ d hd
    exact ⟨agreeAll_of_portable (h d hd).1, fun t ht => agree_of_portable ((h d hd).2 t ht)⟩

/-- C94, headers which follow the advice of the documentation (doc/shared.rst.in:47-48): whatever the targets, remote calls have the outcome of local calls. -/
theorem C94_fixed_width (ha : ∀ d ∈ H.decls, PortableAll d.params ∧ ∀ t, d.ret = some t → Portable t) (hT : T.Valid) (hU : U.Valid)
    (hs : Supported T.plat H.e H.s) (hK : KeyringOk (H.on T)) (hQ : Setting U.plat (H.on U) f defs)
    (ht : ∀ d ∈ (H.on T).decls, WellTyped T.plat H.s ⟨d.sig, defs d.name⟩) (ho : ResponsesFit (H.on U) shared) {calls : List (Nat × List Val)}
    (hc : PeersOk T U H calls) {b : Buf (Link σ)} {w : σ} (hr : Reachable U.plat (H.on U) f (hosted defs) shared (b, ⟨[], [], w⟩)) (hp : Pending b []) :
    match localCalls defs calls w with
    | .ret rs w' => ∃ b', blockingCalls T.plat (H.on T) Link.beside (serveBuffered U.plat) calls (b, ⟨[], [], w⟩) = .ret rs (b', ⟨[], [], w'⟩) ∧
        Reachable U.plat (H.on U) f (hosted defs) shared (b', ⟨[], [], w'⟩) ∧ Pending b' []
    | .threw w' => ∃ b', blockingCalls T.plat (H.on T) Link.beside (serveBuffered U.plat) calls (b, ⟨[], [], w⟩) = .threw (b', ⟨[], [], w'⟩)
    | .fault f => blockingCalls T.plat (H.on T) Link.beside (serveBuffered U.plat) calls (b, ⟨[], [], w⟩) = .fault f := by
  have h := C94_agree ((C94_portable H).2 ha T U hT hU) hT.plat hs hK hQ ht ho hc hr hp
  cases hl : localCalls defs calls w with
  | fault e => rw [hl] at h; exact h.1
  | threw w' => rw [hl] at h; exact h.1
  | ret rs w' => rw [hl] at h; exact h.1

theorem header_at (T : Target) {i : Nat} (hi : i < H.decls.length) : ∃ h : i < (H.on T).decls.length, (H.on T).decls[i] = H.decls[i].on T :=
  ⟨by simpa [Header.on] using hi, by simp [Header.on]⟩

theorem header_idx (H : Header) (T U : Target) : (H.on T).idxBytes = (H.on U).idxBytes := by simp [Header.on, Keyring.idxBytes]

/-- C94, the types of the callee take more bytes: once it has received the whole request, the callee is still waiting, no function has been called, and the
bytes of the request are those of the packet which the next request will be taken to complete. -/
theorem C94_shorter (hK : KeyringOk (H.on T)) (hQ : Setting U.plat (H.on U) f defs) {i : Nat} (hi : i < H.decls.length) {args : List Val}
    (hf : Val.FitsAll (Safe T.plat H.s) (T.tys H.decls[i].params) args)
    (hlt : wireSizes (T.tys H.decls[i].params) < wireSizes (U.tys H.decls[i].params)) {b : Buf σ} {w : σ}
    (hr : Reachable U.plat (H.on U) f defs shared (b, w)) (hp : Pending b []) {bytes : List Byte}
    (hb : bytes = request H.e H.s (H.on T).idxBytes i (T.tys H.decls[i].params) args) :
    ∃ b', puts U.plat bytes (b, w) = .ret (List.replicate bytes.length .loading) (b', w) ∧ Pending b' bytes := by
  obtain ⟨hb1, _, hs, out, hm⟩ := reachable_pending hQ hr hp
  obtain ⟨hiT, eT⟩ := header_at T hi
  obtain ⟨hiU, eU⟩ := header_at U hi
  have hpk : PackedAll (T.tys H.decls[i].params) := by
    have := (hK.2 _ (List.getElem_mem hiT)).2.1
    rw [eT] at this; exact this
  have hwl := wires_length (e := H.e) (s := H.s) hpk hf
  have hidx := header_idx H T U
  have hv : wireValue (H.on U).e (wireBytes H.e (H.on U).idxBytes i) = i := wireValue_wireBytes (Nat.lt_trans hiU (idxBytes_pos hQ.ring.1).2)
  have hcb : (protoOf (H.on U) defs).cbs[wireValue (protoOf (H.on U) defs).e (wireBytes H.e (H.on U).idxBytes i)]? =
      some ⟨(H.on U).decls[i].sig, defs (H.on U).decls[i].name⟩ := by
    have := protoOf_at (defs := defs) hiU
    rw [← this]
    congr 1
  have hsig : (H.on U).decls[i].sig.params = U.tys H.decls[i].params := by rw [eU]; rfl
  have hinc : Incomplete (protoOf (H.on U) defs) ([] ++ bytes) := by
    refine incomplete_call (cb := ⟨(H.on U).decls[i].sig, defs (H.on U).decls[i].name⟩) (index := wireBytes H.e (H.on U).idxBytes i)
      (args := wires H.e H.s (T.tys H.decls[i].params) args ++
        List.replicate (wireSizes (U.tys H.decls[i].params) - wireSizes (T.tys H.decls[i].params)) 0#8)
      (l' := List.replicate (wireSizes (U.tys H.decls[i].params) - wireSizes (T.tys H.decls[i].params)) 0#8)
      (wireBytes_length _ _ _) hcb ?_ ?_ ?_
    · show _ = wireSizes (H.on U).decls[i].sig.params
      rw [hsig, List.length_append, hwl, List.length_replicate]; omega
    · rw [hb, request, hidx]; simp
    · intro h0
      have := congrArg List.length h0
      simp at this; omega
  obtain ⟨b', h1, h2, _, _⟩ := puts_loading hQ.valid w hm.inp hb1 hinc
  exact ⟨b', h1, by simpa using pending_relIn h2⟩

/-- C94, the types of the callee do not take more bytes: the callee calls the function as soon as it has received the number of bytes which its own types take, on the
values which these bytes stand for, and the other bytes, if any, are left to be taken as the beginning of the next request. -/
theorem C94_longer (hK : KeyringOk (H.on T)) (hQ : Setting U.plat (H.on U) f defs) (ho : ResponsesFit (H.on U) shared)
    {i : Nat} (hi : i < H.decls.length) {args : List Val} (hf : Val.FitsAll (Safe T.plat H.s) (T.tys H.decls[i].params) args)
    (hle : wireSizes (U.tys H.decls[i].params) ≤ wireSizes (T.tys H.decls[i].params)) {b : Buf σ} {w : σ}
    (hr : Reachable U.plat (H.on U) f defs shared (b, w)) (hp : Pending b []) {bytes : List Byte}
    (hb : bytes = request H.e H.s (H.on T).idxBytes i (T.tys H.decls[i].params) args) :
    ∃ front back, bytes = front ++ back ∧ back.length = wireSizes (T.tys H.decls[i].params) - wireSizes (U.tys H.decls[i].params) ∧
      match undecodables U.plat H.e H.s (U.tys H.decls[i].params) (front.drop (H.on U).idxBytes) with
      | some f => puts U.plat front (b, w) = .fault f
      | none =>
        match defs H.decls[i].name (unwires H.e H.s (U.tys H.decls[i].params) (front.drop (H.on U).idxBytes)) w with
        | .ret r w' => ∃ b', puts U.plat front (b, w) = .ret (List.replicate (front.length - 1) .loading ++ [.resolved]) (b', w') ∧ Pending b' [] ∧
            Unread b' (response H.e H.s ((H.decls[i].on U).sig.ret) r)
        | .threw w' => ∃ b', puts U.plat front (b, w) = .threw (b', w')
        | .fault f => puts U.plat front (b, w) = .fault f := by
  obtain ⟨hb1, hlen, hs, out, hm⟩ := reachable_pending hQ hr hp
  obtain ⟨hiT, eT⟩ := header_at T hi
  obtain ⟨hiU, eU⟩ := header_at U hi
  have hpk : PackedAll (T.tys H.decls[i].params) := by
    have := (hK.2 _ (List.getElem_mem hiT)).2.1
    rw [eT] at this; exact this
  have hwl := wires_length (e := H.e) (s := H.s) hpk hf
  have hidx := header_idx H T U
  have hcb : (protoOf (H.on U) defs).cbs[wireValue (protoOf (H.on U) defs).e (wireBytes H.e (H.on U).idxBytes i)]? =
      some ⟨(H.decls[i].on U).sig, defs H.decls[i].name⟩ := by
    have h1 := protoOf_at (defs := defs) hiU
    rw [eU] at h1
    have hv : wireValue (H.on U).e (wireBytes H.e (H.on U).idxBytes i) = i := wireValue_wireBytes (Nat.lt_trans hiU (idxBytes_pos hQ.ring.1).2)
    have h2 : wireValue (protoOf (H.on U) defs).e (wireBytes H.e (H.on U).idxBytes i) = i := hv
    rw [h2]; exact h1
  have hmem : (H.decls[i].on U) ∈ (H.on U).decls := by rw [← eU]; exact List.getElem_mem hiU
  have hlt' : ((wires H.e H.s (T.tys H.decls[i].params) args).take (wireSizes (U.tys H.decls[i].params))).length = wireSizes (U.tys H.decls[i].params) := by
    rw [List.length_take, hwl]; omega
  have hx := puts_call_exact hQ.valid w hm.inp hb1 (index := wireBytes H.e (H.on U).idxBytes i) (wireBytes_length _ _ _) hcb hlt'
  have hdec : undecodables U.plat H.e H.s (U.tys H.decls[i].params)
        ((wires H.e H.s (T.tys H.decls[i].params) args).take (wireSizes (U.tys H.decls[i].params))) = none →
      Decodes U.plat (protoOf (H.on U) defs) ⟨(H.decls[i].on U).sig, defs H.decls[i].name⟩
        ((wires H.e H.s (T.tys H.decls[i].params) args).take (wireSizes (U.tys H.decls[i].params))) := by
    intro hu
    have hg := hQ.ring.2 _ hmem
    rcases decodes_cases hQ.valid (p := protoOf (H.on U) defs) hQ.sup (cb := ⟨(H.decls[i].on U).sig, defs H.decls[i].name⟩) hg hlt' with h | ⟨f, h, _⟩
    · exact h
    · have hx := readAll_exact hQ.valid hQ.sup (U.tys H.decls[i].params)
        ((wires H.e H.s (T.tys H.decls[i].params) args).take (wireSizes (U.tys H.decls[i].params))) 0 hg.1 hg.2.1 (by omega)
      rw [slice_all hlt', show undecodables U.plat (H.on U).e (H.on U).s _ _ = none from hu] at hx
      exact absurd (hx.symm.trans h) (by simp [orFault])
  refine ⟨wireBytes H.e (H.on U).idxBytes i ++ (wires H.e H.s (T.tys H.decls[i].params) args).take (wireSizes (U.tys H.decls[i].params)),
    (wires H.e H.s (T.tys H.decls[i].params) args).drop (wireSizes (U.tys H.decls[i].params)), ?_, by rw [List.length_drop, hwl], ?_⟩
  · rw [hb, request, hidx, List.append_assoc, List.take_append_drop]
  · rw [List.drop_left' (wireBytes_length _ _ _), List.length_append]
    cases hu : undecodables U.plat H.e H.s (U.tys H.decls[i].params)
        ((wires H.e H.s (T.tys H.decls[i].params) args).take (wireSizes (U.tys H.decls[i].params))) with
    | some f' =>
      rw [show undecodables U.plat (protoOf (H.on U) defs).e (protoOf (H.on U) defs).s (⟨(H.decls[i].on U).sig, defs H.decls[i].name⟩ : Callback σ).sig.params _ =
        some f' from hu] at hx
      exact hx
    | none =>
    have h := puts_call hQ.valid w hm.inp hb1 (index := wireBytes H.e (H.on U).idxBytes i) (wireBytes_length _ _ _) hcb hlt' (hdec hu)
      (by rw [hlen]; exact ho _ hmem)
    simp only
    cases hc : defs H.decls[i].name (unwires H.e H.s (U.tys H.decls[i].params)
        ((wires H.e H.s (T.tys H.decls[i].params) args).take (wireSizes (U.tys H.decls[i].params)))) w with
    | fault e =>
      rw [show (⟨(H.decls[i].on U).sig, defs H.decls[i].name⟩ : Callback σ).fn (unwires (protoOf (H.on U) defs).e (protoOf (H.on U) defs).s (⟨(H.decls[i].on U).sig, defs H.decls[i].name⟩ : Callback σ).sig.params _) w = _ from hc] at h
      exact h
    | threw w' =>
      rw [show (⟨(H.decls[i].on U).sig, defs H.decls[i].name⟩ : Callback σ).fn (unwires (protoOf (H.on U) defs).e (protoOf (H.on U) defs).s (⟨(H.decls[i].on U).sig, defs H.decls[i].name⟩ : Callback σ).sig.params _) w = _ from hc] at h
      exact h
    | ret r w' =>
      rw [show (⟨(H.decls[i].on U).sig, defs H.decls[i].name⟩ : Callback σ).fn (unwires (protoOf (H.on U) defs).e (protoOf (H.on U) defs).s (⟨(H.decls[i].on U).sig, defs H.decls[i].name⟩ : Callback σ).sig.params _) w = _ from hc] at h
      obtain ⟨b', h1, h2, h3, _⟩ := h
      exact ⟨b', h1, pending_relIn h2, h3⟩

/-- C94, a type which is signed for the caller and unsigned for the callee (`char`, `wchar_t`): the callee receives the value which was sent if and only if it is not
negative and the keyring does not use offset binary. -/
theorem C94_signed_sender {t : NTy} {k : Nat} (hT : T.ty t = .sint k) (hU : U.ty t = .uint k) (hk : SizeOk k) {e : Endian} {s : Mode} {z : Int}
    (hz : Representable s k z) : unwire e s (U.ty t) (wire e s (T.ty t) (.int z)) = .int z ↔ 0 ≤ z ∧ s ≠ .offsetBinary := by
  rw [hT, hU]
  simp only [wire, unwire]
  rw [wireValue_wireBytes (signedCode_lt hk hz)]
  obtain ⟨M, B, hM, hB, e1, e2, e3, e4, e5, e6⟩ := pows hk
  cases s <;> simp only [Representable, InRange, signedCode, e1, e2, e3, Val.int.injEq, ne_eq, reduceCtorEq, not_false_eq_true, and_true, not_true, and_false,
    iff_false] at hz ⊢
  · split <;> omega
  · split <;> omega
  · split <;> omega
  · omega

/-- C94, a type which is unsigned for the caller and signed for the callee: the callee receives the value which was sent if and only if it is a value of the signed type and
the keyring does not use offset binary. -/
theorem C94_unsigned_sender {t : NTy} {k : Nat} (hT : T.ty t = .uint k) (hU : U.ty t = .sint k) (hk : SizeOk k) {e : Endian} {s : Mode} {n : Nat}
    (hn : n < 2 ^ (8 * k)) :
    unwire e s (U.ty t) (wire e s (T.ty t) (.int n)) = .int n ↔ n < 2 ^ (8 * k - 1) ∧ s ≠ .offsetBinary := by
  rw [hT, hU]
  simp only [wire, unwire]
  obtain ⟨M, B, hM, hB, e1, e2, e3, e4, e5, e6⟩ := pows hk
  have hn' : n < 256 ^ k := by omega
  rw [wireValue_wireBytes (by simpa using hn')]
  cases s <;> simp only [signedValue, e1, e2, e3, e4, Int.toNat_natCast, Val.int.injEq, ne_eq, reduceCtorEq, not_false_eq_true, and_true, not_true, and_false,
    iff_false] at hn ⊢
  · split <;> omega
  · split <;> omega
  · split <;> omega
  · omega

/-! ## Examples -/

/-- A 64-bit computer. -/
def pcTarget : Target := ⟨pc, true, 4, true, 2, 8, 8, fun _ => 8⟩

/-- An AVR microcontroller. -/
def avrTarget : Target := ⟨avr, true, 2, true, 2, 4, 2, fun _ => 5⟩

/-- A 32-bit ARM microcontroller, on which `char` is unsigned. -/
def armTarget : Target := ⟨pc, false, 4, false, 2, 4, 4, fun _ => 8⟩

theorem pcTarget_valid : pcTarget.Valid :=
  ⟨pc_valid, by decide, by decide, by decide, by decide, by decide, by decide, fun _ => show 1 ≤ 8 by decide⟩

theorem avrTarget_valid : avrTarget.Valid :=
  ⟨avr_valid, by decide, by decide, by decide, by decide, by decide, by decide, fun _ => show 1 ≤ 5 by decide⟩

/-- The header of `ledRing`. -/
def ledHeader : Header := ⟨.little, .twosComplement,
  [⟨1, [.fixed 2 false, .fixed 1 false], some (.fixed 2 false)⟩, ⟨2, [], none⟩, ⟨3, [.arr (.fixed 1 false) 2], some (.fixed 2 true)⟩]⟩

theorem ledHeader_on (T : Target) : ledHeader.on T = ledRing := by
  simp [Header.on, NDecl.on, ledHeader, ledRing, Target.tys, Target.ty, intTy]

theorem ledHeader_agree (T U : Target) : HeaderAgree T U ledHeader := by
  simp [HeaderAgree, ledHeader, AgreeAll, Agree]

theorem ledHeader_peers : PeersOk avrTarget pcTarget ledHeader ledCalls := by
  simp [PeersOk, ledHeader_on, CallsOk, ledCalls, ledRing, Val.FitsAll, Val.Fits]

example : ∃ b', blockingCalls avr (ledHeader.on avrTarget) Link.beside (serveBuffered pc) ledCalls
      (fresh pc (ledHeader.on pcTarget) .any (hosted ledDefs) 255 true, ⟨[], [], ([], [], [])⟩) =
    .ret [some (.int 307), some (.int (-1)), none]
      (b', ⟨[], [], ([], [[.int 1, .int 300, .int 7], [.int 3, .int 4, .int 5], [.int 2]], [])⟩) := by
  have h := C94_agree (T := avrTarget) (U := pcTarget) (H := ledHeader) (f := .any) (defs := ledDefs) (shared := true) (ledHeader_agree _ _) avr_valid
    (avr_supported _ _) (ledHeader_on avrTarget ▸ ledRing_ok) (ledHeader_on pcTarget ▸ led_setting .any) (ledHeader_on avrTarget ▸ led_typed_avr)
    (ledHeader_on pcTarget ▸ led_fit true) ledHeader_peers (w := ([], [], [])) ⟨255, _, .start⟩ (fresh_pending _ _ _ _ _ _)
  rw [ledCalls_local] at h
  exact h.1.imp fun _ h => h.1

example : ∃ b', blockingCalls avr (ledHeader.on avrTarget) Link.beside (serveBuffered pc) ledCalls
      (fresh pc (ledHeader.on pcTarget) .any (hosted ledDefs) 255 true, ⟨[], [], ([], [], [])⟩) =
    .ret [some (.int 307), some (.int (-1)), none]
      (b', ⟨[], [], ([], [[.int 1, .int 300, .int 7], [.int 3, .int 4, .int 5], [.int 2]], [])⟩) := by
  have h := C94_fixed_width (T := avrTarget) (U := pcTarget) (H := ledHeader) (f := .any) (defs := ledDefs) (shared := true)
    (by simp [ledHeader, PortableAll, Portable]) avrTarget_valid pcTarget_valid
    (avr_supported _ _) (ledHeader_on avrTarget ▸ ledRing_ok) (ledHeader_on pcTarget ▸ led_setting .any) (ledHeader_on avrTarget ▸ led_typed_avr)
    (ledHeader_on pcTarget ▸ led_fit true) ledHeader_peers (w := ([], [], [])) ⟨255, _, .start⟩ (fresh_pending _ _ _ _ _ _)
  rw [ledCalls_local] at h
  exact h.imp fun _ h => h.1

example : blockingCalls avr (ledHeader.on avrTarget) (Lens.whole _) (serveUnbuffered pc (Dispatcher.make (ledHeader.on pcTarget) .any (hosted ledDefs))) ledCalls
      ⟨[], [], ([], [], [])⟩ =
    .ret [some (.int 307), some (.int (-1)), none] ⟨[], [], ([], [[.int 1, .int 300, .int 7], [.int 3, .int 4, .int 5], [.int 2]], [])⟩ := by
  have h := C94_agree_unbuffered (T := avrTarget) (U := pcTarget) (H := ledHeader) (defs := ledDefs) (ledHeader_agree _ _) avr_valid pc_valid
    (avr_supported _ _) (pc_supported _ _) (ledHeader_on avrTarget ▸ ledRing_ok) (ledHeader_on pcTarget ▸ ledRing_ok) (ledHeader_on avrTarget ▸ led_typed_avr)
    (ledHeader_on pcTarget ▸ (led_setting .any).typed) ledHeader_peers .any ([], [], [])
  rw [ledCalls_local] at h
  exact h

example : ∀ T U : Target, T.Valid → U.Valid → HeaderAgree T U ledHeader :=
  (C94_portable ledHeader).2 (by simp [ledHeader, PortableAll, Portable])

/-- A header which declares `void set(int)`, big endian. -/
def setHeader : Header := ⟨.big, .twosComplement, [⟨7, [.std .int true], none⟩]⟩

example : ¬ ∀ T U : Target, T.Valid → U.Valid → HeaderAgree T U setHeader :=
  fun h => by
    have := ((C94_portable setHeader).1 h _ (List.mem_singleton.2 rfl)).1
    simp [PortableAll, Portable] at this

/-- `set` stores its argument. -/
def setDefs : Nat → List Val → Eff Int (Option Val) := fun _ args w =>
  match args with
  | [.int x] => .ret none x
  | _ => .ret none w

theorem set_pc : setHeader.on pcTarget = ⟨.big, .twosComplement, [⟨7, [.sint 4], none⟩]⟩ := rfl
theorem set_avr : setHeader.on avrTarget = ⟨.big, .twosComplement, [⟨7, [.sint 2], none⟩]⟩ := rfl

theorem set_ring (T : Target) (hT : T.Valid) : KeyringOk (setHeader.on T) := by
  have h1 := hT.plat.int_ge
  have h2 := hT.plat.int_le
  refine ⟨show 1 < 2 ^ 64 by decide, ?_⟩
  simp [Header.on, NDecl.on, setHeader, Target.tys, Target.ty, intTy, Target.sizeOf, SigOk, Ty.WFs, Ty.WF, PackedAll, Packed]
  omega

theorem set_typed (T : Target) (P : Platform) : ∀ d ∈ (setHeader.on T).decls, WellTyped P (setHeader.on T).s ⟨d.sig, setDefs d.name⟩ := by
  simp only [Header.on, NDecl.on, setHeader, List.map, List.mem_cons, List.not_mem_nil, or_false, forall_eq]
  intro args w r w' hf h
  match args, hf with
  | [.int x], _ =>
    simp only [setDefs] at h
    injection h with h1 _
    subst h1
    trivial

theorem set_setting (T : Target) (hT : T.Valid) (hs : Supported T.plat .big .twosComplement) (f : Features) : Setting T.plat (setHeader.on T) f setDefs where
  valid := hT.plat
  ring := set_ring T hT
  sup := hs
  sizes := by simp [Header.on, NDecl.on, setHeader, Target.tys, Target.ty, intTy, Ty.sizeof, wireSize]
  typed := set_typed T T.plat

/-- A computer calls `set(1)` on an AVR: its four-byte argument is read as a two-byte one, `0`. -/
example : localCalls setDefs [(7, [.int 1])] 5 = .ret [none] 1 ∧
    (match blockingCalls pc (setHeader.on pcTarget) Link.beside (serveBuffered avr) [(7, [.int 1])]
      (fresh avr (setHeader.on avrTarget) .any (hosted setDefs) 255 false, (⟨[], [], 5⟩ : Link Int)) with
    | .ret _ s => some s.2.world | _ => none) = some 0 := ⟨rfl, by decide +kernel⟩

/-- The same call, as it is received by the AVR: `set(0)` is called when two of the four bytes have been received. -/
example : ∃ front back, request .big .twosComplement 1 0 [.sint 4] [.int 1] = front ++ back ∧ back.length = 2 ∧
    match undecodables avr .big .twosComplement [.sint 2] (front.drop 1) with
    | some f => puts avr front (fresh avr (setHeader.on avrTarget) .any setDefs 255 false, 5) = .fault f
    | none =>
    match setDefs 7 (unwires .big .twosComplement [.sint 2] (front.drop 1)) 5 with
    | .ret r w' => ∃ b', puts avr front (fresh avr (setHeader.on avrTarget) .any setDefs 255 false, 5) =
        .ret (List.replicate (front.length - 1) .loading ++ [.resolved]) (b', w') ∧ Pending b' [] ∧ Unread b' (response .big .twosComplement none r)
    | .threw w' => ∃ b', puts avr front (fresh avr (setHeader.on avrTarget) .any setDefs 255 false, 5) = .threw (b', w')
    | .fault f => puts avr front (fresh avr (setHeader.on avrTarget) .any setDefs 255 false, 5) = .fault f :=
  C94_longer (T := pcTarget) (U := avrTarget) (H := setHeader) (shared := false) (i := 0) (args := [.int 1]) (set_ring _ pcTarget_valid)
    (set_setting _ avrTarget_valid (avr_supported _ _) .any) (by simp [ResponsesFit, set_avr, retSize])
    (by decide) (by simp [setHeader, Target.tys, Target.ty, intTy, Target.sizeOf, Val.FitsAll, Val.Fits, Safe, Representable, InRange, pcTarget, pc])
    (by decide) ⟨255, _, .start⟩ (fresh_pending _ _ _ _ _ _) rfl

/-- The AVR calls `set(1)` on the computer, which still waits for two bytes. -/
example : ∃ b', puts pc [0, 0, 1] (fresh pc (setHeader.on pcTarget) .any setDefs 255 false, 5) = .ret [.loading, .loading, .loading] (b', 5) ∧
    Pending b' [0, 0, 1] :=
  C94_shorter (T := avrTarget) (U := pcTarget) (H := setHeader) (shared := false) (i := 0) (args := [.int 1]) (set_ring _ avrTarget_valid)
    (set_setting _ pcTarget_valid (pc_supported _ _) .any)
    (by decide) (by simp [setHeader, Target.tys, Target.ty, intTy, Target.sizeOf, Val.FitsAll, Val.Fits, Safe, Representable, InRange, avrTarget, avr])
    (by decide) ⟨255, _, .start⟩ (fresh_pending _ _ _ _ _ _) (by decide)

/-- `char` is signed on the computer and unsigned on the ARM microcontroller. -/
example : unwire .little .twosComplement (armTarget.ty .char) (wire .little .twosComplement (pcTarget.ty .char) (.int 65)) = .int 65 :=
  (C94_signed_sender (T := pcTarget) (U := armTarget) (t := .char) (k := 1) rfl rfl (by decide) (by simp [Representable, InRange])).2 (by decide)

example : unwire .little .twosComplement (armTarget.ty .char) (wire .little .twosComplement (pcTarget.ty .char) (.int (-1))) ≠ .int (-1) :=
  fun h => absurd ((C94_signed_sender (T := pcTarget) (U := armTarget) (t := .char) (k := 1) rfl rfl (by decide) (by simp [Representable, InRange])).1 h).1 (by decide)

example : unwire .little .twosComplement (pcTarget.ty .char) (wire .little .twosComplement (armTarget.ty .char) (.int (200 : Nat))) ≠ .int (200 : Nat) :=
  fun h => absurd ((C94_unsigned_sender (T := armTarget) (U := pcTarget) (t := .char) (k := 1) rfl rfl (by decide) (by decide)).1 h).1 (by decide)

end Upd
