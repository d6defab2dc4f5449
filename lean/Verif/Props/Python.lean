import Verif.Model.Python
import Verif.Lemmas.Reach
import Verif.Props.Dispatcher

/-!
# Keys exposed to Python (C54)
-/

namespace Upd
open Spec TypeList

variable {σ ρ : Type}

/-- C54 as stated, on `encode`: it returns the packet that the key writes. -/
def C54_Statement : Prop :=
  ∀ (P : Platform) (k : Key) (args : List Val), P.Valid → Supported P k.e k.s → 1 ≤ k.idxBytes → k.index < 256 ^ k.idxBytes → SigOk k.sig →
    Val.FitsAll (Safe P k.s) k.sig.params args →
    PyKey.encode P k args = .ok (request k.e k.s k.idxBytes k.index k.sig.params args)

/-- C54 does not hold on `encode`, as C29: `payload_length` is computed from `sizeof`. Here a parameter of 4 bytes is serialized on 3 bytes, and the
last byte returned to Python is uninitialised. -/
theorem C54_full_statement_is_false : ¬ C54_Statement := by
  intro h
  have h1 := h pc ⟨.little, .twosComplement, 1, 0, [.user 4 [.uint 1, .uint 2]], none⟩ [.user [.int 1, .int 2]] pc_valid (pc_supported _ _)
    (by decide) (by decide) (by simp [SigOk, Ty.WFs, Ty.WF, PackedAll, Packed]) (by simp [Val.FitsAll, Val.Fits])
  have h2 : PyKey.encode pc ⟨.little, .twosComplement, 1, 0, [.user 4 [.uint 1, .uint 2]], none⟩ [.user [.int 1, .int 2]] =
    .ok [0#8, 1#8, 2#8, 0#8, 0xAA#8] := rfl
  rw [h2] at h1
  exact absurd h1 (by decide)

theorem bufIt_overrun : ∀ {out : List Byte} {mem : Mem} {i : Nat}, i ≤ mem.length → mem.length < i + out.length →
    putAll bufIt out (mem, i) = .fault .oobWrite
  | [], mem, i, h, h' => by simp at h'; omega
  | x :: out, mem, i, h, h' => by
    simp only [List.length_cons] at h'
    show (bufIt x >>= fun _ => putAll bufIt out) (mem, i) = _
    by_cases hi : i < mem.length
    · have h1 : bufIt x (mem, i) = .ret () (mem.set i x, i + 1) := by
        unfold bufIt; simp only; rw [Mem.wr_ok hi]
      rw [Eff.bind_ret h1]
      exact bufIt_overrun (by simp; omega) (by simp; omega)
    · have h1 : bufIt x (mem, i) = .fault .oobWrite := by
        unfold bufIt Mem.wr; simp only; rw [if_neg hi]
      rw [Eff.bind_fault h1]

/-- C54, `encode`, exactly: the packet, followed by uninitialised bytes up to `payload_length`; undefined (write out of bounds) if the packet is
longer than `payload_length`. -/
theorem C54_encode_exact {P : Platform} (hP : P.Valid) {k : Key} (hs : Supported P k.e k.s) (hk : 1 ≤ k.idxBytes)
    (hi : k.index < 256 ^ k.idxBytes) (hg : SigOk k.sig) {args : List Val} (hf : Val.FitsAll (Safe P k.s) k.sig.params args) :
    PyKey.encode P k args =
      if k.idxBytes + wireSizes k.sig.params ≤ k.payloadLength then
        .ok (request k.e k.s k.idxBytes k.index k.sig.params args ++
          (P.junkBytes k.payloadLength).drop (k.idxBytes + wireSizes k.sig.params))
      else .error .oobWrite := by
  have hl : (request k.e k.s k.idxBytes k.index k.sig.params args).length = k.idxBytes + wireSizes k.sig.params := by
    rw [request, List.length_append, wireBytes_length, wires_length hg.2.1 hf]
  have hj := junkBytes_length P k.payloadLength
  unfold PyKey.encode
  rw [C29_request_format hP hs hk hi hg hf]
  by_cases hle : k.idxBytes + wireSizes k.sig.params ≤ k.payloadLength
  · have h1 := putAll_accepts (bufIt_accepts (out := request k.e k.s k.idxBytes k.index k.sig.params args)
      (mem := P.junkBytes k.payloadLength) (i := 0) (by rw [hj, hl]; omega))
    rw [h1, if_pos hle]
    simp only [splice, List.take_zero, List.nil_append, Nat.zero_add, hl]
  · rw [bufIt_overrun (by omega) (by rw [hj, hl]; omega), if_neg hle]

/-- C54, `encode`, partial: the object size of each parameter is its serialized size (always the case without user-extended type). Missing:
the parameters for which it is not, see `C54_encode_exact`. -/
theorem C54_encode_partial {P : Platform} (hP : P.Valid) {k : Key} (hs : Supported P k.e k.s) (hk : 1 ≤ k.idxBytes)
    (hi : k.index < 256 ^ k.idxBytes) (hg : SigOk k.sig) (hsz : ∀ t ∈ k.sig.params, t.sizeof = wireSize t) {args : List Val}
    (hf : Val.FitsAll (Safe P k.s) k.sig.params args) :
    PyKey.encode P k args = .ok (request k.e k.s k.idxBytes k.index k.sig.params args) := by
  have hp : k.payloadLength = k.idxBytes + wireSizes k.sig.params := by rw [Key.payloadLength, parametersSize_eq hsz]
  rw [C54_encode_exact hP hs hk hi hg hf, if_pos (by omega), ← hp,
    List.drop_eq_nil_of_le (by rw [junkBytes_length]; exact Nat.le_refl _), List.append_nil]

theorem pySrc_yields (bs rest : List Byte) : Yields pySrc (bs ++ rest) bs rest := by
  induction bs with
  | nil => exact .nil _
  | cons b bs ih => exact .cons rfl ih

theorem pySrc_short : ∀ (n : Nat) (bs : List Byte), bs.length < n → getN pySrc n bs = .threw []
  | 0, _, h => by simp at h
  | n + 1, [], _ => rfl
  | n + 1, b :: bs, h => by
    simp only [List.length_cons] at h
    show (pySrc >>= fun b => getN pySrc n >>= fun bs => pure (b :: bs)) (b :: bs) = _
    have h1 : pySrc (b :: bs) = .ret b bs := rfl
    rw [Eff.bind_ret h1, Eff.bind_threw (pySrc_short n bs (by omega))]

/-- C54, `decode`: gives the value returned remotely; what follows it is ignored. -/
theorem C54_decode {P : Platform} (hP : P.Valid) {k : Key} (hs : Supported P k.e k.s) (hg : SigOk k.sig) {r : Option Val}
    (hr : RetOk P k.s k.sig.ret r) (rest : List Byte) : PyKey.decode P k (response k.e k.s k.sig.ret r ++ rest) = .ret r () := by
  unfold PyKey.decode
  rw [C31_read_value hP hs hg hr pySrc (pySrc_yields _ rest)]

/-- C54, `decode`: a response which is too short raises an exception. -/
theorem C54_decode_short {P : Platform} (hP : P.Valid) {k : Key} (hs : Supported P k.e k.s) (hg : SigOk k.sig) {bytes : List Byte}
    (h : bytes.length < retSize k.sig.ret) : PyKey.decode P k bytes = .threw () := by
  unfold PyKey.decode Key.readFrom
  cases hr : k.sig.ret with
  | none => rw [hr] at h; simp [retSize] at h
  | some t =>
    rw [hr] at h
    obtain ⟨hw, hp⟩ := hg.2.2 t hr
    have hws : Ty.WFs [t] := by simp [Ty.WFs, hw]
    have hps : PackedAll [t] := by simp [PackedAll, hp]
    simp only
    rw [readFrom_eq hP hs hws (packedAll_loose _ hps), packedAll_serSizes _ hps]
    have h1 : getN pySrc (wireSizes [t]) bytes = .threw [] := pySrc_short _ _ (by simpa [wireSizes, retSize] using h)
    rw [Eff.bind_threw h1]

/-- A `new_request` which submits the payload to a dispatcher with the definitions `defs`, and returns what the latter outputs. -/
def viaDispatcher (Q : Platform) (K : Keyring) (f : Features) (defs : Nat → List Val → Eff σ (Option Val)) (payload : List Byte) :
    Eff σ (Response ρ) := fun w =>
  match (Dispatcher.make K f fun name args => Eff.zoom ⟨fun st => st.2.1, fun w st => (st.1, w, st.2.2)⟩ (defs name args)).run Q
    (Lens.whole (List Byte × σ × List Byte)) (Eff.zoom ⟨fun st => st.1, fun l st => (l, st.2)⟩ pySrc)
    (fun x st => .ret () (st.1, st.2.1, st.2.2 ++ [x])) (payload, w, []) with
  | .ret _ (_, w, out) => .ret (.bytes out) w
  | .threw (_, w, _) => .threw w
  | .fault f => .fault f

/-- C54, `Client.call`, partial (same restriction as `C54_encode_partial`): through a dispatcher of the same keyring, `call(key, args...)` calls the
function once on `args` and gives what it returned. -/
theorem C54_client_partial {P Q : Platform} (hP : P.Valid) (hQ : Q.Valid) {K : Keyring} (hK : KeyringOk K) (hsP : Supported P K.e K.s)
    (hsQ : Supported Q K.e K.s) (f : Features) (defs : Nat → List Val → Eff σ (Option Val)) {name : Nat} {k : Key}
    (hk : K.get11 name = some k ∨ K.get17 name = some k) (hsz : ∀ t ∈ k.sig.params, t.sizeof = wireSize t) {args : List Val}
    (hfP : Val.FitsAll (Safe P K.s) k.sig.params args) (hfQ : Val.FitsAll (Safe Q K.s) k.sig.params args) {w w' : σ} {r : Option Val}
    (hd : defs name args w = .ret r w') (hrP : RetOk P K.s k.sig.ret r) (hrQ : RetOk Q K.s k.sig.ret r) :
    Client.call (ρ := ρ) P k (viaDispatcher Q K f defs) args w = .ret (.value r) w' := by
  have hk' : K.get11 name = some k := hk.elim id get17_get11
  obtain ⟨i, hi, hn, rfl⟩ := K.get11_cases hK.1 hk'
  have hg := hK.2 K.decls[i] (List.getElem_mem _)
  have hib : i < 256 ^ K.idxBytes := Nat.lt_trans hi (idxBytes_pos hK.1).2
  have hib1 : 1 ≤ K.idxBytes := (idxBytes_pos hK.1).1
  have he := C54_encode_partial (k := ⟨K.e, K.s, K.idxBytes, i, K.decls[i].sig⟩) hP hsP hib1 hib hg hsz hfP
  obtain ⟨m, hm, h⟩ := C35_end_to_end (τ := List Byte) hP hQ hK hsP hsQ f
    (fun name args => Eff.zoom ⟨fun st : List Byte × σ × List Byte => st.2.1, fun w st => (st.1, w, st.2.2)⟩ (defs name args)) hk hfP hfQ
  rw [message_eq hP hsP hib1 hib hg hfP] at hm
  have hm := Except.ok.inj hm
  have hy : ∀ (m : List Byte) (w : σ) (o : List Byte),
      Yields (Eff.zoom ⟨fun st : List Byte × σ × List Byte => st.1, fun l st => (l, st.2)⟩ pySrc) (m, w, o) m ([], w, o) := by
    intro m w o
    induction m with
    | nil => exact .nil _
    | cons b m ih => exact .cons rfl ih
  have ha : ∀ (m l : List Byte) (w : σ) (o : List Byte),
      Accepts (fun x (st : List Byte × σ × List Byte) => .ret () (st.1, st.2.1, st.2.2 ++ [x])) (l, w, o) m (l, w, o ++ m) := by
    intro m l w
    induction m with
    | nil => intro o; rw [List.append_nil]; exact .nil _
    | cons b m ih => intro o; exact .cons rfl (by have := ih (o ++ [b]); rwa [List.append_assoc] at this)
  obtain ⟨out, h1, h2⟩ := h _ (m, w, []) ([], w, []) ([], w', []) r (hy m w [])
    (by unfold Eff.zoom; simp only [hd]) hrP hrQ
  have h1 := h1 _ _ (ha out [] w' [])
  have h2 := h2 pySrc (out ++ []) [] (pySrc_yields out [])
  unfold Client.call
  rw [he, Eff.lift_ok, pure_bind, hm]
  have h3 : viaDispatcher (ρ := ρ) Q K f defs m w = .ret (.bytes out) w' := by
    unfold viaDispatcher
    rw [h1]
    rfl
  rw [Eff.bind_ret h3]
  simp only [PyKey.decode]
  rw [List.append_nil] at h2
  rw [h2]

/-- C54, `Client.call`: an object which is not of type `bytes` is returned as it is. -/
theorem C54_client_other {P : Platform} {k : Key} {args : List Val} {payload : List Byte} (he : PyKey.encode P k args = .ok payload)
    {newRequest : List Byte → Eff σ (Response ρ)} {w w' : σ} {o : ρ} (h : newRequest payload w = .ret (.other o) w') :
    Client.call P k newRequest args w = .ret (.other o) w' := by
  unfold Client.call
  rw [he, Eff.lift_ok, pure_bind, Eff.bind_ret h]
  rfl

example : PyKey.encode pc demoKey [.int (-2), .int 7] = .ok [0#8, 0xff#8, 0xfe#8, 7#8] :=
  C54_encode_partial pc_valid (pc_supported _ _) (by decide) (by decide) demoKey_ok (by simp [demoKey, Ty.sizeof, wireSize]) demoKey_args

example : PyKey.decode pc demoKey [0#8, 0#8, 0#8, 5#8, 9#8] = .ret (some (.int 5)) () :=
  C54_decode (k := demoKey) (r := some (.int 5)) pc_valid (pc_supported _ _) demoKey_ok
    (by simp [demoKey, RetOk, Val.Fits, Safe, MinSafe, Representable, InRange]) [9#8]

example : PyKey.decode pc demoKey [0#8, 0#8, 0#8] = .threw () :=
  C54_decode_short pc_valid (pc_supported _ _) demoKey_ok (by simp [demoKey, retSize, wireSize])

example (i o : List Byte) : Client.call (ρ := Unit) pc demoKey (viaDispatcher avr demoRing .any demoDefs) [.int (-2), .int 7] (i, [], o) =
    .ret (.value (some (.int 5))) (i, [[.int 10, .int (-2), .int 7]], o) :=
  C54_client_partial (name := 10) pc_valid avr_valid demoRing_ok (pc_supported _ _) (avr_supported _ _) .any demoDefs (Or.inl rfl)
    (by simp [Ty.sizeof, wireSize]) demoKey_args
    (by simp [demoRing, Val.FitsAll, Val.Fits, Safe, MinSafe, Representable, InRange]) rfl
    (by simp [demoRing, RetOk, Val.Fits, Safe, MinSafe, Representable, InRange])
    (by simp [demoRing, RetOk, Val.Fits, Safe, MinSafe, Representable, InRange])

example : Client.call (ρ := Nat) pc demoKey (fun _ w => .ret (.other 3) (w + 1)) [.int (-2), .int 7] 0 = .ret (.other 3) 1 :=
  C54_client_other (payload := [0#8, 0xff#8, 0xfe#8, 7#8]) rfl rfl

example : PyKey.encode pc demoKey [.int (-2), .int 7] = .ok [0#8, 0xff#8, 0xfe#8, 7#8] :=
  (C54_encode_exact pc_valid (pc_supported _ _) (by decide) (by decide) demoKey_ok demoKey_args).trans rfl

end Upd
