import Verif.Lemmas.Key
import Verif.Spec.Request
import Verif.Props.Demo
import Verif.Props.TypeList

/-!
# Keyrings and keys (C26, C27, C29, C30, C31)
-/

namespace Upd
open Spec TypeList

/-- The keyring used in the examples: `int32_t f(int16_t, uint8_t)`, `void g()`, `uint8_t h(bool[2])`. -/
def demoRing : Keyring := ⟨.big, .twosComplement,
  [⟨10, [.sint 2, .uint 1], some (.sint 4)⟩, ⟨20, [], none⟩, ⟨30, [.arr .bool 2], some (.uint 1)⟩]⟩

theorem demoRing_ok : KeyringOk demoRing := by
  refine ⟨by decide, ?_⟩
  simp [demoRing, SigOk, Ty.WFs, Ty.WF, PackedAll, Packed, Ty.sizeof, wireSize]

/-! ## C26 -/

/-- C26 for keyrings and their keys: the index written by a key has 1, 2, 4 or 8 bytes, as few as can hold the number of callbacks, and there
is an index value which no callback has. -/
theorem C26_keyring (K : Keyring) (hl : K.decls.length < 2 ^ 64) {n : Nat} {k : Key} (hk : K.get11 n = some k ∨ K.get17 n = some k) :
    k.idxBytes ∈ [1, 2, 4, 8] ∧ K.decls.length < 256 ^ k.idxBytes ∧ k.index < K.decls.length ∧
      ∀ m ∈ [1, 2, 4, 8], K.decls.length < 256 ^ m → k.idxBytes ≤ m := by
  have h : k.idxBytes = smallestUnsigned K.decls.length ∧ k.index < K.decls.length := by
    rcases hk with hk | hk
    · obtain ⟨i, hi, _, rfl⟩ := K.get11_cases hl hk
      exact ⟨rfl, hi⟩
    · unfold Keyring.get17 at hk
      cases hf : find17 (K.decls.map (·.name)) n with
      | none => rw [hf] at hk; cases hk
      | some i =>
        rw [hf] at hk
        have hi : i < K.decls.length := by
          have := ((find17_spec n _ i).1 hf).1
          rw [List.getElem?_eq_some_iff] at this
          obtain ⟨h, _⟩ := this
          simpa using h
        rw [K.keyAt_eq hl hi] at hk
        cases hk
        exact ⟨rfl, hi⟩
  obtain ⟨h1, h2, h3⟩ := C26_index_type K.decls.length hl
  rw [h.1]
  exact ⟨h1, h2, h.2, h3⟩

example : ∀ m ∈ [1, 2, 4, 8], demoRing.decls.length < 256 ^ m →
    (⟨.big, .twosComplement, 1, 2, [.arr .bool 2], some (.uint 1)⟩ : Key).idxBytes ≤ m :=
  (C26_keyring demoRing (by decide) (n := 30) (.inl rfl)).2.2.2

/-! ## C27 -/

/-- C27. The key of the `i`-th callback carries the index `i` and the signature of the callback, in both implementations;
the index is below the size. -/
theorem C27_key_index (K : Keyring) (hl : K.decls.length < 2 ^ 64) (hn : (K.decls.map (·.name)).Nodup) (i : Nat)
    (hi : i < K.decls.length) :
    K.get11 K.decls[i].name = some ⟨K.e, K.s, K.idxBytes, i, K.decls[i].sig⟩ ∧
    K.get17 K.decls[i].name = some ⟨K.e, K.s, K.idxBytes, i, K.decls[i].sig⟩ ∧
    i < K.size ∧ K.size = K.decls.length ∧ i < 256 ^ K.idxBytes := by
  have hget : (K.decls.map (·.name))[i]? = some K.decls[i].name := by simp [hi]
  have h11 : find11 K.decls[i].name 0 (K.decls.map (·.name)) = some i := by
    rw [find11_spec]
    refine ⟨i, by omega, hget, ?_⟩
    intro j hj h
    have := nodup_get hn h hget
    omega
  have h17 : find17 (K.decls.map (·.name)) K.decls[i].name = some i := by
    rw [find17_spec]
    exact ⟨hget, fun j hj h => hj (nodup_get hn h hget)⟩
  refine ⟨?_, ?_, by rw [K.size_eq hl]; exact hi, K.size_eq hl, Nat.lt_trans hi (idxBytes_pos hl).2⟩
  · unfold Keyring.get11; rw [h11, K.keyAt_eq hl hi]
  · unfold Keyring.get17; rw [h17, K.keyAt_eq hl hi]

/-- C27, distinct callbacks have distinct indices (even if the list has duplicates, in the C++11 implementation). -/
theorem C27_distinct (K : Keyring) (hl : K.decls.length < 2 ^ 64) {n n' : Nat} {k k' : Key} (hk : K.get11 n = some k)
    (hk' : K.get11 n' = some k') (h : n ≠ n') : k.index ≠ k'.index := by
  obtain ⟨i, hi, h1, rfl⟩ := K.get11_cases hl hk
  obtain ⟨j, hj, h2, rfl⟩ := K.get11_cases hl hk'
  rintro (rfl : i = j)
  exact h (h1.symm.trans h2)

example : demoRing.get11 30 = some ⟨.big, .twosComplement, 1, 2, [.arr .bool 2], some (.uint 1)⟩ :=
  (C27_key_index demoRing (by decide) (by decide) 2 (by decide)).1
example : (⟨.big, .twosComplement, 1, 2, [.arr .bool 2], some (.uint 1)⟩ : Key).index ≠
    (⟨.big, .twosComplement, 1, 0, [.sint 2, .uint 1], some (.sint 4)⟩ : Key).index :=
  C27_distinct demoRing (by decide) (n := 30) (n' := 10) rfl rfl (by decide)

/-! ## C29 -/

/-- The packet of a key is the one of the specification. -/
theorem message_eq {P : Platform} (hP : P.Valid) {k : Key} (hs : Supported P k.e k.s) (hk : 1 ≤ k.idxBytes)
    (hi : k.index < 256 ^ k.idxBytes) (hg : SigOk k.sig) {args : List Val} (hf : Val.FitsAll (Safe P k.s) k.sig.params args) :
    k.message P args = .ok (request k.e k.s k.idxBytes k.index k.sig.params args) := by
  have hfi : Val.FitsAll (Safe P k.s) (.uint k.idxBytes :: k.sig.params) (.int k.index :: args) := by
    simp only [Val.FitsAll, Val.Fits]
    refine ⟨⟨by omega, ?_⟩, hf⟩
    have := Int.ofNat_lt.mpr hi
    simpa using this
  unfold Key.message
  rw [make_wires hP hs (by simp only [Ty.WFs, Ty.WF]; exact ⟨hk, hg.1⟩)
    (by simp only [PackedAll, Packed]; exact ⟨trivial, hg.2.1⟩) hfi]
  simp [wires, wire, request]

/-- C29, first part. `key(args...).write_to(dest)` calls `dest` on exactly the bytes of the index followed by those of the arguments,
whatever `dest` does. -/
theorem C29_request_format {τ : Type} {P : Platform} (hP : P.Valid) {k : Key} (hs : Supported P k.e k.s)
    (hk : 1 ≤ k.idxBytes) (hi : k.index < 256 ^ k.idxBytes) (hg : SigOk k.sig) {args : List Val}
    (hf : Val.FitsAll (Safe P k.s) k.sig.params args) (dest : Byte → Eff τ Unit) :
    k.writeTo P args dest = putAll dest (request k.e k.s k.idxBytes k.index k.sig.params args) := by
  unfold Key.writeTo
  rw [message_eq hP hs hk hi hg hf, Eff.lift_ok, pure_bind, outAll_eq]

/-- C29, second part, as stated: the number of bytes of the packet is `payload_length`. -/
def C29_Statement : Prop :=
  ∀ (P : Platform) (k : Key) (args : List Val) (bytes : Mem), P.Valid → Supported P k.e k.s → 1 ≤ k.idxBytes →
    k.index < 256 ^ k.idxBytes → SigOk k.sig → Val.FitsAll (Safe P k.s) k.sig.params args →
    k.message P args = .ok bytes → bytes.length = k.payloadLength

/-- A parameter with a `upd_extension` such that `sizeof` is 4 but which is serialized on 3 bytes. -/
theorem C29_full_statement_is_false : ¬ C29_Statement := by
  intro h
  have := h pc ⟨.little, .twosComplement, 1, 0, [.user 4 [.uint 1, .uint 2]], none⟩ [.user [.int 1, .int 2]]
    [0#8, 1#8, 2#8, 0#8] pc_valid (pc_supported _ _) (by decide) (by decide)
    (by simp [SigOk, Ty.WFs, Ty.WF, PackedAll, Packed])
    (by simp [Val.FitsAll, Val.Fits]) rfl
  simp [Key.payloadLength, Sig.parametersSize, sum11, Ty.sizeof] at this

/-- C29, second part, when the object size of each parameter is its serialized size (always the case without user-extended type, see
`C29_payload_length_builtin`). Missing: parameters with padding, for which it is false. -/
theorem C29_payload_length_partial {P : Platform} (hP : P.Valid) {k : Key} (hs : Supported P k.e k.s)
    (hk : 1 ≤ k.idxBytes) (hi : k.index < 256 ^ k.idxBytes) (hg : SigOk k.sig)
    (hsz : ∀ t ∈ k.sig.params, t.sizeof = wireSize t) {args : List Val}
    (hf : Val.FitsAll (Safe P k.s) k.sig.params args) :
    ∃ bytes, k.message P args = .ok bytes ∧ bytes.length = k.payloadLength := by
  refine ⟨_, message_eq hP hs hk hi hg hf, ?_⟩
  rw [request, List.length_append, wireBytes_length, wires_length hg.2.1 hf, Key.payloadLength, parametersSize_eq hsz]

/-- C29, second part, for parameters without user-extended type. -/
theorem C29_payload_length_builtin {P : Platform} (hP : P.Valid) {k : Key} (hs : Supported P k.e k.s)
    (hk : 1 ≤ k.idxBytes) (hi : k.index < 256 ^ k.idxBytes) (hw : SigOk k.sig) (hb : ∀ t ∈ k.sig.params, Builtin t)
    {args : List Val} (hf : Val.FitsAll (Safe P k.s) k.sig.params args) :
    ∃ bytes, k.message P args = .ok bytes ∧ bytes.length = k.payloadLength :=
  C29_payload_length_partial hP hs hk hi hw (fun t ht => builtin_sizeof t (hb t ht)) hf

/-- C29, second part, exactly: the packet has `payload_length` bytes if and only if the object sizes of the parameters and their serialized sizes
have the same sum. -/
theorem C29_payload_length_iff {P : Platform} (hP : P.Valid) {k : Key} (hs : Supported P k.e k.s)
    (hk : 1 ≤ k.idxBytes) (hi : k.index < 256 ^ k.idxBytes) (hg : SigOk k.sig) {args : List Val}
    (hf : Val.FitsAll (Safe P k.s) k.sig.params args) :
    ∃ bytes, k.message P args = .ok bytes ∧
      (bytes.length = k.payloadLength ↔ (k.sig.params.map Ty.sizeof).sum = (k.sig.params.map wireSize).sum) := by
  refine ⟨_, message_eq hP hs hk hi hg hf, ?_⟩
  rw [request, List.length_append, wireBytes_length, wires_length hg.2.1 hf, Key.payloadLength, Sig.parametersSize, sum11_eq, wireSizes_eq]
  omega

/-- The key of the first callback of `demoRing`. -/
def demoKey : Key := ⟨.big, .twosComplement, 1, 0, [.sint 2, .uint 1], some (.sint 4)⟩

theorem demoKey_ok : SigOk demoKey.sig := by simp [demoKey, SigOk, Ty.WFs, Ty.WF, PackedAll, Packed]

theorem demoKey_args : Val.FitsAll (Safe pc demoKey.s) demoKey.sig.params [.int (-2), .int 7] := by
  simp [demoKey, Val.FitsAll, Val.Fits, Safe, MinSafe, Representable, InRange]

example (dest : Byte → Eff (List Byte) Unit) :
    demoKey.writeTo pc [.int (-2), .int 7] dest = putAll dest [0#8, 0xff#8, 0xfe#8, 7#8] :=
  C29_request_format pc_valid (pc_supported _ _) (by decide) (by decide) demoKey_ok demoKey_args dest

example : ∃ bytes, demoKey.message pc [.int (-2), .int 7] = .ok bytes ∧ bytes.length = demoKey.payloadLength :=
  C29_payload_length_builtin pc_valid (pc_supported _ _) (by decide) (by decide) demoKey_ok
    (by simp [demoKey, Builtin]) demoKey_args

/-- Four bytes are announced for the parameter, three are sent. -/
example {bytes : Mem} (h : (⟨.little, .twosComplement, 1, 0, [.user 4 [.uint 1, .uint 2]], none⟩ : Key).message pc [.user [.int 1, .int 2]] = .ok bytes) :
    bytes.length ≠ 5 := by
  obtain ⟨b, h1, h2⟩ := C29_payload_length_iff pc_valid (k := ⟨.little, .twosComplement, 1, 0, [.user 4 [.uint 1, .uint 2]], none⟩)
    (pc_supported _ _) (by decide) (by decide) (by simp [SigOk, Ty.WFs, Ty.WF, PackedAll, Packed]) (args := [.user [.int 1, .int 2]])
    (by simp [Val.FitsAll, Val.Fits])
  cases h1.symm.trans h
  intro h3
  have := h2.1 h3
  simp [Ty.sizeof, wireSize, wireSizes] at this

/-! ## C30 -/

/-- Requests of a keyring: if two streams which start with a request are equal, so are the requests and the rests of the streams. -/
theorem request_inj {K : Keyring} (hK : KeyringOk K) {i j : Nat} (hi : i < K.decls.length) (hj : j < K.decls.length)
    {a b : List Val} (ha : Val.FitsAll (Representable K.s) K.decls[i].sig.params a)
    (hb : Val.FitsAll (Representable K.s) K.decls[j].sig.params b) {r r' : List Byte}
    (h : request K.e K.s K.idxBytes i K.decls[i].sig.params a ++ r =
      request K.e K.s K.idxBytes j K.decls[j].sig.params b ++ r') : i = j ∧ a = b ∧ r = r' := by
  unfold request at h
  rw [List.append_assoc, List.append_assoc] at h
  have hbi : i < 256 ^ K.idxBytes := Nat.lt_trans hi (idxBytes_pos hK.1).2
  have hbj : j < 256 ^ K.idxBytes := Nat.lt_trans hj (idxBytes_pos hK.1).2
  obtain ⟨h1, h2⟩ := List.append_inj h (by rw [wireBytes_length, wireBytes_length])
  have hij : i = j := by
    have := congrArg (wireValue K.e) h1
    rwa [wireValue_wireBytes hbi, wireValue_wireBytes hbj] at this
  subst hij
  have hg := hK.2 K.decls[i] (List.getElem_mem _)
  obtain ⟨h3, h4⟩ := List.append_inj h2 (by rw [wires_length hg.2.1 ha, wires_length hg.2.1 hb])
  refine ⟨rfl, ?_, h4⟩
  have := congrArg (unwires K.e K.s K.decls[i].sig.params) h3
  rwa [unwires_wires' hg.1 hg.2.1 ha, unwires_wires' hg.1 hg.2.1 hb] at this

/-- C30, prefixes. A request of a keyring is never a prefix of a different request, and more generally cannot be mistaken for the
beginning of another one: whatever follows the two requests (made on possibly different platforms). -/
theorem C30_prefix_free {P Q : Platform} (hP : P.Valid) (hQ : Q.Valid) {K : Keyring} (hK : KeyringOk K)
    (hs : Supported P K.e K.s) (hsQ : Supported Q K.e K.s) {n n' : Nat} {k k' : Key} (hk : K.get11 n = some k)
    (hk' : K.get11 n' = some k') {a b : List Val} (ha : Val.FitsAll (Safe P K.s) k.sig.params a)
    (hb : Val.FitsAll (Safe Q K.s) k'.sig.params b) {m m' : Mem} (hm : k.message P a = .ok m)
    (hm' : k'.message Q b = .ok m') {r r' : List Byte} (h : m ++ r = m' ++ r') :
    n = n' ∧ k = k' ∧ a = b ∧ m = m' ∧ r = r' := by
  obtain ⟨i, hi, h1, rfl⟩ := K.get11_cases hK.1 hk
  obtain ⟨j, hj, h2, rfl⟩ := K.get11_cases hK.1 hk'
  rw [message_eq hP hs (idxBytes_pos hK.1).1 (Nat.lt_trans hi (idxBytes_pos hK.1).2)
    (hK.2 _ (List.getElem_mem _)) ha] at hm
  rw [message_eq hQ hsQ (idxBytes_pos hK.1).1 (Nat.lt_trans hj (idxBytes_pos hK.1).2)
    (hK.2 _ (List.getElem_mem _)) hb] at hm'
  injection hm with hm
  injection hm' with hm'
  subst hm hm'
  obtain ⟨rfl, rfl, h5⟩ := request_inj hK hi hj (fitsAll_mono (fun _ _ => safe_representable) _ _ ha)
    (fitsAll_mono (fun _ _ => safe_representable) _ _ hb) h
  exact ⟨h1.symm.trans h2, rfl, rfl, rfl, h5⟩

/-- The concatenation of the requests for the callbacks of the given names with the given arguments. -/
def messages (P : Platform) (K : Keyring) : List (Nat × List Val) → M Mem
  | [] => .ok []
  | (name, args) :: l =>
    match K.get11 name with
    | none => .error .illTyped
    | some k => do
      let m ← k.message P args
      let ms ← messages P K l
      .ok (m ++ ms)

/-- The requests of the list are for callbacks of the keyring, with arguments of the right types. -/
def RequestsOk (P : Platform) (K : Keyring) (l : List (Nat × List Val)) : Prop :=
  ∀ r ∈ l, ∃ k, K.get11 r.1 = some k ∧ Val.FitsAll (Safe P K.s) k.sig.params r.2

theorem messages_ne_nil {P : Platform} (hP : P.Valid) {K : Keyring} (hK : KeyringOk K) (hs : Supported P K.e K.s)
    {n : Nat} {a : List Val} {l : List (Nat × List Val)} (ha : RequestsOk P K ((n, a) :: l)) :
    messages P K ((n, a) :: l) ≠ .ok [] := by
  intro h
  obtain ⟨k, hk, hf⟩ := ha (n, a) (by simp)
  simp only at hk hf
  simp only [messages, hk] at h
  obtain ⟨m1, hm1, h1⟩ := except_bind_eq_ok h
  obtain ⟨m2, hm2, h2⟩ := except_bind_eq_ok h1
  obtain ⟨i, hi, _, rfl⟩ := K.get11_cases hK.1 hk
  rw [message_eq hP hs (idxBytes_pos hK.1).1 (Nat.lt_trans hi (idxBytes_pos hK.1).2)
    (hK.2 _ (List.getElem_mem _)) hf] at hm1
  have hm1 := Except.ok.inj hm1
  have h2 := Except.ok.inj h2
  have := congrArg List.length h2
  rw [← hm1, request, List.length_append, List.length_append, wireBytes_length] at this
  have h1 : 1 ≤ K.idxBytes := (idxBytes_pos hK.1).1
  simp at this
  omega

/-- C30, sequences. A concatenation of requests determines the list of requests. -/
theorem C30_unique_decodability {P Q : Platform} (hP : P.Valid) (hQ : Q.Valid) {K : Keyring} (hK : KeyringOk K)
    (hs : Supported P K.e K.s) (hsQ : Supported Q K.e K.s) : ∀ {l l' : List (Nat × List Val)}, RequestsOk P K l →
      RequestsOk Q K l' → ∀ {m}, messages P K l = .ok m → messages Q K l' = .ok m → l = l'
  | [], [], _, _, _, _, _ => rfl
  | [], (n, a) :: l, _, ha, m, h, h' => by
    cases h
    exact absurd h' (messages_ne_nil hQ hK hsQ ha)
  | (n, a) :: l, [], ha, _, m, h, h' => by
    cases h'
    exact absurd h (messages_ne_nil hP hK hs ha)
  | (n, a) :: l, (n', a') :: l', ha, ha', m, h, h' => by
    obtain ⟨k, hk, hf⟩ := ha (n, a) (by simp)
    obtain ⟨k', hk', hf'⟩ := ha' (n', a') (by simp)
    simp only [messages, hk] at h
    simp only [messages, hk'] at h'
    obtain ⟨m1, hm1, h⟩ := except_bind_eq_ok h
    obtain ⟨m2, hm2, h⟩ := except_bind_eq_ok h
    obtain ⟨m1', hm1', h'⟩ := except_bind_eq_ok h'
    obtain ⟨m2', hm2', h'⟩ := except_bind_eq_ok h'
    injection h with h
    injection h' with h'
    obtain ⟨rfl, rfl, rfl, rfl, rfl⟩ := C30_prefix_free hP hQ hK hs hsQ hk hk' hf hf' hm1 hm1' (h.trans h'.symm)
    rw [C30_unique_decodability hP hQ hK hs hsQ (fun r hr => ha r (by simp [hr])) (fun r hr => ha' r (by simp [hr])) hm2
      hm2']

theorem demo_requests : RequestsOk pc demoRing [(20, []), (10, [.int (-2), .int 7])] := by
  intro r hr
  simp only [List.mem_cons, List.not_mem_nil, or_false] at hr
  rcases hr with rfl | rfl
  · exact ⟨_, rfl, by simp [Val.FitsAll]⟩
  · exact ⟨_, rfl, demoKey_args⟩

example {l : List (Nat × List Val)} (hl : RequestsOk avr demoRing l)
    (h : messages avr demoRing l = .ok [1#8, 0#8, 0xff#8, 0xfe#8, 7#8]) : [(20, []), (10, [.int (-2), .int 7])] = l :=
  C30_unique_decodability pc_valid avr_valid demoRing_ok (pc_supported _ _) (avr_supported _ _) demo_requests hl rfl h

/-! ## C31 -/

/-- C31. `key.read_from(src)` calls `src` as many times as there are bytes in the encoding of the return type, and returns the value
that these bytes stand for; for `void` it does nothing. It holds for every source (stateful, throwing…) and every bytes,
for the return types that the platform can decode from any bytes. -/
theorem C31_read_from {τ : Type} {P : Platform} (hP : P.Valid) {k : Key} (hs : Supported P k.e k.s) (hg : SigOk k.sig)
    (hd : ∀ t, k.sig.ret = some t → DecodeSafe P k.e k.s t) (src : Eff τ Byte) :
    k.readFrom P src =
      match k.sig.ret with
      | none => pure none
      | some t => getN src (wireSize t) >>= fun bs => pure (some (unwire k.e k.s t bs)) := by
  unfold Key.readFrom
  cases hr : k.sig.ret with
  | none => rfl
  | some t =>
    obtain ⟨hw, hp⟩ := hg.2.2 t hr
    have hws : Ty.WFs [t] := by simp [Ty.WFs, hw]
    have hps : PackedAll [t] := by simp [PackedAll, hp]
    simp only
    rw [readFrom_eq hP hs hws (packedAll_loose _ hps), packedAll_serSizes _ hps]
    show (getN src (wireSizes [t]) >>= _) = _
    rw [show wireSizes [t] = wireSize t by simp [wireSizes]]
    apply Eff.bind_congr
    intro w bs w' h
    have hl := (getN_length h).1
    obtain ⟨h1, _⟩ := readAll_decodeSafe hP hs hws hps (by simp [DecodeSafeAll, hd t hr]) (bs := bs)
      (by rw [hl]; simp [wireSizes])
    have h2 := readAll_get h1 (i := 0) (by simp) (by simp [unwires])
    rw [View.get_eq P (Tuple.self k.e k.s [t]) (by simp [Tuple.self])]
    simp only [List.take_zero, Ty.serSizes, Nat.add_zero] at h2
    show (Eff.lift (readAs P k.e k.s t bs 0) >>= _) w' = _
    simp only [List.getElem_cons_zero] at h2
    rw [h2]
    simp [unwires, List.take_of_length_le, hl, Eff.lift_ok]

/-- C31, on the encoding of a value: whatever the platform (no restriction on the return type besides `SigOk`), `read_from` gives
the value back and consumes its encoding only. -/
theorem C31_read_value {τ : Type} {P : Platform} (hP : P.Valid) {k : Key} (hs : Supported P k.e k.s) (hg : SigOk k.sig)
    {r : Option Val} (hr : RetOk P k.s k.sig.ret r) (src : Eff τ Byte) {w w' : τ}
    (hy : Yields src w (response k.e k.s k.sig.ret r) w') : k.readFrom P src w = .ret r w' := by
  unfold Key.readFrom
  cases hret : k.sig.ret with
  | none =>
    rw [hret] at hr hy
    cases r with
    | none => cases hy; rfl
    | some v => cases hr
  | some t =>
    rw [hret] at hr hy
    cases r with
    | none => cases hr
    | some v =>
    obtain ⟨hw, hp⟩ := hg.2.2 t hret
    have hws : Ty.WFs [t] := by simp [Ty.WFs, hw]
    have hps : PackedAll [t] := by simp [PackedAll, hp]
    simp only [RetOk] at hr
    simp only [response] at hy
    have hl := wire_length (e := k.e) (s := k.s) hp hr
    simp only
    rw [readFrom_eq hP hs hws (packedAll_loose _ hps), packedAll_serSizes _ hps]
    have hn : wireSizes [t] = (wire k.e k.s t v).length := by simp [wireSizes, hl]
    rw [hn, Eff.bind_ret (getN_yields hy), View.get_eq P (Tuple.self k.e k.s [t]) (by simp [Tuple.self])]
    show (Eff.lift (readAs P k.e k.s t (wire k.e k.s t v) 0) >>= _) w' = _
    rw [readAs_packed hP hs hw hp hr (slice_all hl)]
    rfl

/-- A byte source reading a list. -/
def listSrc : Eff (List Byte) Byte := fun l =>
  match l with
  | [] => .threw []
  | b :: l => .ret b l

theorem listSrc_yields (bs rest : List Byte) : Yields listSrc (bs ++ rest) bs rest := by
  induction bs with
  | nil => exact .nil rest
  | cons b bs ih => exact .cons rfl ih

example (rest : List Byte) : demoKey.readFrom pc listSrc ([0xff#8, 0xff#8, 0xff#8, 0xfe#8] ++ rest) = .ret (some (.int (-2))) rest :=
  C31_read_value pc_valid (pc_supported _ _) demoKey_ok (r := some (.int (-2)))
    (by simp [demoKey, RetOk, Val.Fits, Safe, MinSafe, Representable, InRange]) listSrc
    (listSrc_yields [0xff#8, 0xff#8, 0xff#8, 0xfe#8] rest)

example (src : Eff Nat Byte) : demoKey.readFrom pcMacros src =
    getN src 4 >>= fun bs => pure (some (unwire .big .twosComplement (.sint 4) bs)) :=
  C31_read_from pcMacros_valid (pcMacros_supported _ _) demoKey_ok (by
    intro t h; cases h; simp [DecodeSafe, pcMacros, demoKey]) src

/-! ## Further uses -/

/-- Arrays of user-extended types of the size of their encoding. -/
example : ∃ bytes, (⟨.big, .twosComplement, 1, 3, [.arr (.user 3 [.sint 2, .uint 1]) 2], none⟩ : Key).message pc
      [.arr [.user [.int (-2), .int 1], .user [.int 2, .int 3]]] = .ok bytes ∧
    bytes.length = (⟨.big, .twosComplement, 1, 3, [.arr (.user 3 [.sint 2, .uint 1]) 2], none⟩ : Key).payloadLength :=
  C29_payload_length_partial pc_valid (pc_supported _ _) (by decide) (by decide)
    (by simp [SigOk, Ty.WFs, Ty.WF, PackedAll, Packed, Ty.sizeof, wireSize, wireSizes])
    (by simp [Ty.sizeof, wireSize, wireSizes])
    (by simp [Val.FitsAll, Val.Fits, Safe, MinSafe, Representable, InRange])

/-- A stream which starts with the request of a callback starts with no other one. -/
example {k : Key} {n : Nat} {b : List Val} {m r r' : List Byte} (hk : demoRing.get11 n = some k)
    (hb : Val.FitsAll (Safe avr demoRing.s) k.sig.params b) (hm : k.message avr b = .ok m)
    (h : [0#8, 0xff#8, 0xfe#8, 7#8] ++ r = m ++ r') : 10 = n ∧ [.int (-2), .int 7] = b :=
  have := C30_prefix_free pc_valid avr_valid demoRing_ok (pc_supported _ _) (avr_supported _ _) (n := 10) (k := demoKey) rfl hk demoKey_args hb rfl hm h
  ⟨this.1, this.2.2.1⟩

end Upd
