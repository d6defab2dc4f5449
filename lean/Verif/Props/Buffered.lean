import Verif.Lemmas.Packets
import Verif.Props.Dispatcher

/-!
# Buffered dispatchers: packets (C39, C40, C41, C42, C43, C44, C52)

`Reachable P K f defs shared (b, w)`: `b` is a buffered dispatcher for the keyring `K` (single buffered if `shared`) on which any
member functions have been called since its construction, the rest of the world (on which callbacks, getters and putters act) being `w`.
`Setting P K f defs` gathers the restrictions on platforms, types and callbacks (see `Verif.Spec.History`).
-/

namespace Upd
open Spec TypeList

variable {σ : Type}

/-- The keyring used in the examples: `uint16_t add(uint16_t, uint8_t)`, `void reset()`, `int16_t probe(uint8_t[2])`. -/
def ledRing : Keyring := ⟨.little, .twosComplement,
  [⟨1, [.uint 2, .uint 1], some (.uint 2)⟩, ⟨2, [], none⟩, ⟨3, [.arr (.uint 1) 2], some (.sint 2)⟩]⟩

/-- Definitions of the functions of `ledRing`: they log their calls in the world. -/
def ledDefs : Nat → List Val → Eff (List Byte × List (List Val) × List Byte) (Option Val) := fun name args w =>
  match name, args with
  | 1, [.int x, .int y] => .ret (some (.int ((x + y) % 65536))) (w.1, w.2.1 ++ [.int 1 :: args], w.2.2)
  | 2, [] => .ret none (w.1, w.2.1 ++ [[.int 2]], w.2.2)
  | 3, [.arr vs] => .ret (some (.int (-1))) (w.1, w.2.1 ++ [.int 3 :: vs], w.2.2)
  | _, _ => .ret none w

theorem ledRing_ok : KeyringOk ledRing := by
  refine ⟨by decide, ?_⟩
  simp [ledRing, SigOk, Ty.WFs, Ty.WF, PackedAll, Packed, Ty.sizeof, wireSize]

theorem led_setting (f : Features) : Setting pc ledRing f ledDefs where
  valid := pc_valid
  ring := ledRing_ok
  sup := pc_supported _ _
  sizes := by simp [ledRing, Ty.sizeof, wireSize]
  typed := by
    simp only [ledRing, List.mem_cons, List.not_mem_nil, or_false, forall_eq_or_imp, forall_eq]
    refine ⟨?_, ?_, ?_⟩
    · intro args w r w' hf h
      match args, hf with
      | [.int x, .int y], _ =>
        simp only [ledDefs] at h
        injection h with h1 _
        subst h1
        simp only [RetOk, Val.Fits]
        omega
    · intro args w r w' hf h
      match args, hf with
      | [], _ => simp only [ledDefs] at h; injection h with h1 _; subst h1; simp [RetOk]
    · intro args w r w' hf h
      match args, hf with
      | [.arr vs], _ =>
        simp only [ledDefs] at h
        injection h with h1 _
        subst h1
        simp [RetOk, Val.Fits, Safe, MinSafe, Representable, InRange, pc]

theorem led_fit (shared : Bool) : ResponsesFit ledRing shared := by
  have h1 : neededOutput ledRing = 3 := rfl
  have h2 : neededInput ledRing = 4 := rfl
  unfold ResponsesFit
  rw [h1, h2]
  cases shared <;> simp [ledRing, retSize, wireSize]

theorem led_decode : AllDecodeSafe pc ledRing := by
  simp [AllDecodeSafe, ledRing, DecodeSafeAll, DecodeSafe]

theorem led_start (f : Features) (shared : Bool) (w : List Byte × List (List Val) × List Byte) :
    Reachable pc ledRing f ledDefs shared (fresh pc ledRing f ledDefs (2 ^ 64 - 1) shared, w) := ⟨_, _, .start⟩

theorem led_noThrow : NeverThrow ledRing ledDefs := by
  intro d _ args w w' h
  unfold ledDefs at h
  split at h <;> cases h

theorem fresh_pending (P : Platform) (K : Keyring) (f : Features) (defs : Nat → List Val → Eff σ (Option Val)) (sizeMax : Nat)
    (shared : Bool) : Pending (fresh P K f defs sizeMax shared) [] := by
  cases shared <;> exact ⟨rfl, slice_zero _ _⟩

/-- Capacity of the output buffer. -/
def outRoom (K : Keyring) (shared : Bool) : Nat := if shared then neededInput K else neededOutput K

section
variable {P : Platform} {K : Keyring} {f : Features} {defs : Nat → List Val → Eff σ (Option Val)} {shared : Bool}

/-- What is known of a reachable state. -/
theorem reachable_inv (h : Setting P K f defs) {b : Buf σ} {w : σ} (hr : Reachable P K f defs shared (b, w)) :
    BufOk P (protoOf K defs) b ∧ b.out.length = outRoom K shared ∧ b.shared = shared ∧ ∃ m, Rel (protoOf K defs) b m := by
  obtain ⟨sizeMax, w0, hr⟩ := hr
  obtain ⟨hs, hb, hm⟩ := reach_inv h hr
  exact ⟨hb, by rw [hs.outLen, fresh_outLen]; rfl, by rw [hs.shared, fresh_shared], hm⟩

theorem reachable_pending (h : Setting P K f defs) {b : Buf σ} {w : σ} (hr : Reachable P K f defs shared (b, w))
    {l : List Byte} (hp : Pending b l) :
    BufOk P (protoOf K defs) b ∧ b.out.length = outRoom K shared ∧ b.shared = shared ∧
      ∃ out, Rel (protoOf K defs) b ⟨l, out⟩ := by
  obtain ⟨h1, h2, h3, m, hm⟩ := reachable_inv h hr
  have := relIn_pending hm.inp hp
  subst this
  exact ⟨h1, h2, h3, m.out, hm⟩

/-- The bytes of a request. -/
theorem request_parts (h : Setting P K f defs) {i : Nat} (hi : i < K.decls.length) {args : List Val}
    (hf : Val.FitsAll (Safe P K.s) K.decls[i].sig.params args) :
    (wireBytes K.e K.idxBytes i).length = (protoOf K defs).idxBytes ∧
    (protoOf K defs).cbs[wireValue K.e (wireBytes K.e K.idxBytes i)]? = some ⟨K.decls[i].sig, defs K.decls[i].name⟩ ∧
    (wires K.e K.s K.decls[i].sig.params args).length = wireSizes K.decls[i].sig.params := by
  refine ⟨wireBytes_length _ _ _, ?_, wires_length (h.ring.2 _ (List.getElem_mem _)).2.1 hf⟩
  have : wireValue K.e (wireBytes K.e K.idxBytes i) = i := wireValue_wireBytes (Nat.lt_trans hi (idxBytes_pos h.ring.1).2)
  rw [this]
  exact protoOf_at hi

/-! ## C39 -/

/-- C39, all bytes but the last. The request for the `i`-th callback with arguments `args` is made of `l`, the byte `x` and `rest`,
not empty. Once `l` has been received, `put(x)` returns LOADING_PACKET and the world is left as it was: the callback is not called (nor
anything else). The dispatcher is then ready for the next byte, and what remains of the previous response is not affected (if there is a
separate output buffer). Anything may have happened between the previous bytes, besides other bytes (see `Reach`). -/
theorem C39_loading (h : Setting P K f defs) {b : Buf σ} {w : σ} (hr : Reachable P K f defs shared (b, w)) {i : Nat}
    (hi : i < K.decls.length) {args : List Val} (hf : Val.FitsAll (Safe P K.s) K.decls[i].sig.params args)
    {l rest : List Byte} {x : Byte} (hl : request K.e K.s K.idxBytes i K.decls[i].sig.params args = l ++ x :: rest)
    (hne : rest ≠ []) (hp : Pending b l) :
    ∃ b', Buf.put P x (b, w) = .ret .loading (b', w) ∧ Pending b' (l ++ [x]) ∧
      ∀ out, Unread b out → (shared = true → out = []) → Unread b' out := by
  obtain ⟨hb, _, hs, out, hm⟩ := reachable_pending h hr hp
  obtain ⟨h1, h2, h3⟩ := request_parts h hi hf
  have hc : Incomplete (protoOf K defs) (l ++ [x]) :=
    incomplete_call h1 h2 h3 (l' := rest) (by rw [← request, hl]; simp) hne
  obtain ⟨b', h4, h5, h6, h7⟩ := put_more h.valid hm.inp hb (classify_more_iff.2 hc) w
  exact ⟨b', h4, pending_relIn h5, fun o ho hd => unread_keep ho h6 h7 (by rw [hs]; exact hd)⟩

/-- C39, last byte: the callback is called on `args`. If it returns, `put` returns RESOLVED_PACKET, the response is in the output buffer
(if it is large enough, see C43), and the dispatcher is ready for the next packet. If it throws, so does `put`. -/
theorem C39_resolved (h : Setting P K f defs) {b : Buf σ} {w : σ} (hr : Reachable P K f defs shared (b, w)) {i : Nat}
    (hi : i < K.decls.length) {args : List Val} (hf : Val.FitsAll (Safe P K.s) K.decls[i].sig.params args)
    (ho : retSize K.decls[i].sig.ret ≤ outRoom K shared) {l : List Byte} {x : Byte}
    (hl : request K.e K.s K.idxBytes i K.decls[i].sig.params args = l ++ [x]) (hp : Pending b l) :
    match defs K.decls[i].name args w with
    | .ret r w' => ∃ b', Buf.put P x (b, w) = .ret .resolved (b', w') ∧ Pending b' [] ∧ b'.obufNext = 0 ∧
        Unread b' (response K.e K.s K.decls[i].sig.ret r)
    | .threw w' => ∃ b', Buf.put P x (b, w) = .threw (b', w')
    | .fault f => Buf.put P x (b, w) = .fault f := by
  obtain ⟨hb, hlen, hs, out, hm⟩ := reachable_pending h hr hp
  obtain ⟨h1, h2, h3⟩ := request_parts h hi hf
  have hcb := hb.serves.sig _ (mem_of_get h2)
  have hcl : (protoOf K defs).classify (l ++ [x]) = .request ⟨K.decls[i].sig, defs K.decls[i].name⟩
      (wires K.e K.s K.decls[i].sig.params args) := by rw [← hl]; exact classify_call h1 h2 h3
  have hdec : Decodes P (protoOf K defs) ⟨K.decls[i].sig, defs K.decls[i].name⟩ (wires K.e K.s K.decls[i].sig.params args) :=
    decodes_args h.valid hb.serves.sup hcb hf
  have hun : unwires (protoOf K defs).e (protoOf K defs).s K.decls[i].sig.params
      (wires K.e K.s K.decls[i].sig.params args) = args := unwires_wires h.valid h.sup hcb.1 hcb.2.1 hf
  obtain ⟨b', h5, h6⟩ := put_request_eq h.valid hm.inp hb hcl hdec w
  simp only [hun] at h6
  cases hfn : defs K.decls[i].name args w with
  | fault f => rw [hfn] at h6; exact h6
  | threw w' => rw [hfn] at h6; exact ⟨_, h6⟩
  | ret r w' =>
    rw [hfn] at h6
    have hret := h.typed _ (List.getElem_mem hi) _ _ _ _ hf hfn
    have hfit : (response K.e K.s K.decls[i].sig.ret r).length ≤ b'.out.length := by
      rw [response_length hcb hret, h5.outLen, hlen]; exact ho
    simp only at h6
    have h7 := h6.trans (if_pos hfit)
    refine ⟨_, h7, pending_relIn (finish_relIn hb.serves.pos), ?_, finish_unread hfit⟩
    unfold Buf.finish Buf.pushAll
    cases b'.shared <;> rfl

/-- C39, the whole request, put between two packets: the statuses are LOADING_PACKET for each byte but the last, for which it is
RESOLVED_PACKET. -/
theorem C39_whole_request (h : Setting P K f defs) {b : Buf σ} {w : σ} (hr : Reachable P K f defs shared (b, w))
    (hp : Pending b []) {i : Nat} (hi : i < K.decls.length) {args : List Val}
    (hf : Val.FitsAll (Safe P K.s) K.decls[i].sig.params args) (ho : retSize K.decls[i].sig.ret ≤ outRoom K shared)
    {r : Option Val} {w' : σ} (hd : defs K.decls[i].name args w = .ret r w') {req : List Byte}
    (hreq : req = request K.e K.s K.idxBytes i K.decls[i].sig.params args) :
    ∃ b', puts P req (b, w) = .ret (List.replicate (req.length - 1) .loading ++ [.resolved]) (b', w') ∧ Pending b' [] ∧
      Unread b' (response K.e K.s K.decls[i].sig.ret r) := by
  subst hreq
  obtain ⟨hb, hlen, hs, out, hm⟩ := reachable_pending h hr hp
  obtain ⟨h1, h2, h3⟩ := request_parts h hi hf
  have hcb := hb.serves.sig _ (mem_of_get h2)
  have := puts_call h.valid w hm.inp hb h1 h2 h3 (decodes_args h.valid hb.serves.sup hcb hf) (by rw [hlen]; exact ho)
  have hun : unwires (protoOf K defs).e (protoOf K defs).s K.decls[i].sig.params
      (wires K.e K.s K.decls[i].sig.params args) = args := unwires_wires h.valid h.sup hcb.1 hcb.2.1 hf
  simp only [hun, hd] at this
  obtain ⟨b', h4, h5, h6, _⟩ := this
  exact ⟨b', by rw [request, h4, List.length_append], pending_relIn h5, h6⟩

end

example : ∃ b', puts pc [0#8, 0x2c#8, 0x01#8, 7#8] (fresh pc ledRing .any ledDefs (2 ^ 64 - 1) false, ([], [], [])) =
      .ret [.loading, .loading, .loading, .resolved] (b', ([], [[.int 1, .int 300, .int 7]], [])) ∧
    Pending b' [] ∧ Unread b' [0x33#8, 0x01#8] :=
  C39_whole_request (led_setting .any) (led_start .any false _) (fresh_pending _ _ _ _ _ _) (i := 0) (by decide)
    (req := [0#8, 0x2c#8, 0x01#8, 7#8]) (r := some (.int 307)) (w' := ([], [[.int 1, .int 300, .int 7]], []))
    (args := [.int 300, .int 7]) (by simp [ledRing, Val.FitsAll, Val.Fits]) (led_fit false _ (List.getElem_mem _)) rfl rfl

/-! ## C40 -/

section
variable {P : Platform} {K : Keyring} {f : Features} {defs : Nat → List Val → Eff σ (Option Val)} {shared : Bool}

/-- C40, before the last byte of the index: LOADING_PACKET, whatever the index will be. -/
theorem C40_loading (h : Setting P K f defs) {b : Buf σ} {w : σ} (hr : Reachable P K f defs shared (b, w)) {l : List Byte}
    {x : Byte} (hl : l.length + 1 < K.idxBytes) (hp : Pending b l) :
    ∃ b', Buf.put P x (b, w) = .ret .loading (b', w) ∧ Pending b' (l ++ [x]) := by
  obtain ⟨hb, _, hs, out, hm⟩ := reachable_pending h hr hp
  have hc : Incomplete (protoOf K defs) (l ++ [x]) := Or.inl (by simpa [protoOf] using hl)
  obtain ⟨b', h4, h5, h6, h7⟩ := put_more h.valid hm.inp hb (classify_more_iff.2 hc) w
  exact ⟨b', h4, pending_relIn h5⟩

/-- C40, last byte of an index which is not the one of a callback: `put` returns DROPPED_PACKET, the world is left as it was (no callback is
called), the next byte starts a new packet, and what remains of the previous response is not affected (if there is a separate output
buffer). -/
theorem C40_dropped (h : Setting P K f defs) {b : Buf σ} {w : σ} (hr : Reachable P K f defs shared (b, w)) {l : List Byte}
    {x : Byte} (hl : l.length + 1 = K.idxBytes) (hi : K.decls.length ≤ wireValue K.e (l ++ [x])) (hp : Pending b l) :
    ∃ b', Buf.put P x (b, w) = .ret .dropped (b', w) ∧ Pending b' [] ∧
      ∀ out, Unread b out → (shared = true → out = []) → Unread b' out := by
  obtain ⟨hb, _, hs, out, hm⟩ := reachable_pending h hr hp
  have hc : (protoOf K defs).classify (l ++ [x]) = .bad :=
    classify_bad (by simpa [protoOf] using hl) (by
      rw [List.getElem?_eq_none_iff]; simpa [protoOf] using hi)
  obtain ⟨b', h4, h5, h6, h7⟩ := put_bad h.valid hm.inp hb hc w
  exact ⟨b', h4, pending_relIn h5, fun o ho hd => unread_keep ho h6 h7 (by rw [hs]; exact hd)⟩

/-- C40, all the bytes of an invalid index. -/
theorem C40_whole_index (h : Setting P K f defs) {b : Buf σ} {w : σ} (hr : Reachable P K f defs shared (b, w))
    (hp : Pending b []) {index : List Byte} (hl : index.length = K.idxBytes)
    (hi : K.decls.length ≤ wireValue K.e index) :
    ∃ b', puts P index (b, w) = .ret (List.replicate (index.length - 1) .loading ++ [.dropped]) (b', w) ∧ Pending b' [] ∧
      ∀ out, Unread b out → (shared = true → out = []) → Unread b' out := by
  obtain ⟨hb, _, hs, out, hm⟩ := reachable_pending h hr hp
  obtain ⟨b', h4, h5, h6, h7⟩ := puts_invalid h.valid w hm.inp hb (index := index) hl (by
      rw [List.getElem?_eq_none_iff]; simpa [protoOf] using hi)
  exact ⟨b', h4, pending_relIn h5, fun o ho hd => unread_keep ho h6 h7 (by rw [hs]; exact hd)⟩

end

example : ∃ b', puts pc [3#8] (fresh pc ledRing .any ledDefs (2 ^ 64 - 1) false, ([], [], [])) =
      .ret [.dropped] (b', ([], [], [])) ∧ Pending b' [] ∧
    ∀ out, Unread (fresh pc ledRing .any ledDefs (2 ^ 64 - 1) false) out → (false = true → out = []) → Unread b' out :=
  C40_whole_index (led_setting .any) (led_start .any false _) (fresh_pending _ _ _ _ _ _) (index := [3#8]) rfl (by decide)

/-! ## Examples with several bytes -/

theorem reachable_puts {P : Platform} {K : Keyring} {f : Features} {defs : Nat → List Val → Eff σ (Option Val)} {shared : Bool} :
    ∀ {bs : List Byte} {st st' : BState σ} {sts : List Status}, Reachable P K f defs shared st → puts P bs st = .ret sts st' →
      Reachable P K f defs shared st'
  | [], st, st', sts, h, hp => by cases hp; exact h
  | x :: bs, st, st', sts, ⟨sizeMax, w0, h⟩, hp => by
    have hp' : (Buf.put P x >>= fun s => puts P bs >>= fun sts => pure (s :: sts)) st = .ret sts st' := hp
    cases hx : Buf.put P x st with
    | fault f => rw [Eff.bind_fault hx] at hp'; cases hp'
    | threw t => rw [Eff.bind_threw hx] at hp'; cases hp'
    | ret s t =>
      rw [Eff.bind_ret hx] at hp'
      have hr : (Op.put x : Op σ).run P st = .ret () t := by
        show (Buf.put P x >>= fun _ => pure ()) st = _
        rw [Eff.bind_ret hx]; rfl
      have ht : Reachable P K f defs shared t := ⟨sizeMax, w0, .ret (.put x) h trivial hr⟩
      cases hb : puts P bs t with
      | fault f => rw [Eff.bind_fault hb] at hp'; cases hp'
      | threw t => rw [Eff.bind_threw hb] at hp'; cases hp'
      | ret sts' t' =>
        rw [Eff.bind_ret hb] at hp'
        cases hp'
        exact reachable_puts ht hb

/-- A dispatcher for `ledRing` which has received an invalid index, then all but the last byte of `add(300, 7)`. -/
theorem led_mid (shared : Bool) : ∃ b, Reachable pc ledRing .any ledDefs shared (b, ([], [], [])) ∧
    Pending b [0#8, 0x2c#8, 0x01#8] := by
  obtain ⟨b1, h1, h2, _⟩ := C40_whole_index (led_setting .any) (led_start .any shared ([], [], [])) (fresh_pending _ _ _ _ _ _)
    (index := [9#8]) rfl (by decide)
  have hr1 := reachable_puts (led_start .any shared _) h1
  obtain ⟨hb, _, _, out, hm⟩ := reachable_pending (led_setting .any) hr1 h2
  obtain ⟨b2, h3, h4, _⟩ := puts_loading pc_valid ([], [], []) (bs := [0#8, 0x2c#8, 0x01#8]) hm.inp hb
    (Or.inr ⟨⟨⟨[.uint 2, .uint 1], some (.uint 2)⟩, ledDefs 1⟩, rfl, (by decide : 3 < 1 + 3)⟩)
  exact ⟨b2, reachable_puts hr1 h3, pending_relIn h4⟩

example : ∃ b b' : Buf (List Byte × List (List Val) × List Byte), Pending b [0#8, 0x2c#8, 0x01#8] ∧
    Buf.put pc 7#8 (b, ([], [], [])) = .ret .resolved (b', ([], [[.int 1, .int 300, .int 7]], [])) ∧ Pending b' [] ∧
    b'.obufNext = 0 ∧ Unread b' [0x33#8, 0x01#8] := by
  obtain ⟨b, h1, h2⟩ := led_mid true
  have := C39_resolved (led_setting .any) h1 (i := 0) (by decide) (args := [.int 300, .int 7])
    (by simp [ledRing, Val.FitsAll, Val.Fits]) (led_fit true _ (List.getElem_mem _)) (l := [0#8, 0x2c#8, 0x01#8]) (x := 7#8) rfl h2
  exact ⟨b, _, h2, this.choose_spec⟩

example (b : Buf (List Byte × List (List Val) × List Byte)) (h1 : Reachable pc ledRing .any ledDefs false (b, ([], [], [])))
    (h2 : Pending b [0#8, 0x2c#8]) :
    ∃ b', Buf.put pc 1#8 (b, ([], [], [])) = .ret .loading (b', ([], [], [])) ∧ Pending b' [0#8, 0x2c#8, 1#8] ∧
      ∀ out, Unread b out → (false = true → out = []) → Unread b' out :=
  C39_loading (led_setting .any) h1 (i := 0) (by decide) (args := [.int 300, .int 7])
    (by simp [ledRing, Val.FitsAll, Val.Fits]) (rest := [7#8]) rfl (by simp) h2

example (b : Buf (List Byte × List (List Val) × List Byte)) (h1 : Reachable pc ledRing .any ledDefs false (b, ([], [], [])))
    (h2 : Pending b []) :
    ∃ b', Buf.put pc 77#8 (b, ([], [], [])) = .ret .dropped (b', ([], [], [])) ∧ Pending b' [] ∧
      ∀ out, Unread b out → (false = true → out = []) → Unread b' out :=
  C40_dropped (led_setting .any) h1 (l := []) rfl (by decide) h2

/-- A keyring with 300 functions: the indices have two bytes. -/
def bigRing : Keyring := ⟨.big, .twosComplement, List.replicate 300 ⟨2, [], none⟩⟩

theorem big_setting (f : Features) : Setting pc bigRing f ledDefs where
  valid := pc_valid
  ring := by
    refine ⟨by show (List.replicate 300 _).length < _; rw [List.length_replicate]; decide, ?_⟩
    intro d hd
    have := List.eq_of_mem_replicate hd
    subst this
    simp [SigOk, Ty.WFs, PackedAll]
  sup := pc_supported _ _
  sizes := by
    intro d hd
    have := List.eq_of_mem_replicate hd
    subst this
    simp
  typed := by
    intro d hd
    have := List.eq_of_mem_replicate hd
    subst this
    exact (led_setting .any).typed ⟨2, [], none⟩ (by simp [ledRing])

theorem big_idx : bigRing.idxBytes = 2 := by
  show smallestUnsigned (List.replicate 300 _).length = 2
  rw [List.length_replicate]
  rfl

example (b : Buf (List Byte × List (List Val) × List Byte)) (h1 : Reachable pc bigRing .any ledDefs false (b, ([], [], [])))
    (h2 : Pending b []) :
    ∃ b', Buf.put pc 200#8 (b, ([], [], [])) = .ret .loading (b', ([], [], [])) ∧ Pending b' [200#8] :=
  C40_loading (big_setting .any) h1 (l := []) (by rw [big_idx]; decide) h2

/-! ## C41 -/

/-- C41: there is always a way to cut a stream into packets. -/
theorem C41_cuts_exist {p : Proto σ} (hp : 1 ≤ p.idxBytes) (bs : List Byte) : ∃ ps rest, Cuts p bs ps rest := by
  by_cases h1 : bs.length < p.idxBytes
  · exact ⟨[], bs, .rest (Or.inl h1)⟩
  · have hl : (bs.take p.idxBytes).length = p.idxBytes := by rw [List.length_take]; omega
    cases hc : p.cbs[wireValue p.e (bs.take p.idxBytes)]? with
    | none =>
      have hlt : (bs.drop p.idxBytes).length < bs.length := by rw [List.length_drop]; omega
      obtain ⟨ps, rest, h⟩ := C41_cuts_exist hp (bs.drop p.idxBytes)
      have := Cuts.invalid hl hc h
      rw [List.take_append_drop] at this
      exact ⟨_, _, this⟩
    | some cb =>
      by_cases h2 : bs.length < p.idxBytes + wireSizes cb.sig.params
      · exact ⟨[], bs, .rest (Or.inr ⟨cb, hc, h2⟩)⟩
      · have hlt : (bs.drop (p.idxBytes + wireSizes cb.sig.params)).length < bs.length := by rw [List.length_drop]; omega
        obtain ⟨ps, rest, h⟩ := C41_cuts_exist hp (bs.drop (p.idxBytes + wireSizes cb.sig.params))
        have := Cuts.call hl hc (args := (bs.drop p.idxBytes).take (wireSizes cb.sig.params))
          (by rw [List.length_take, List.length_drop]; omega) h
        rw [List.append_assoc, ← List.drop_drop, List.take_append_drop, List.take_append_drop] at this
        exact ⟨_, _, this⟩
termination_by bs.length

/-- C41: there is only one way to cut a stream into packets. -/
theorem C41_cuts_unique {p : Proto σ} {bs rest rest' : List Byte} {ps ps' : List (Packet σ)} (h : Cuts p bs ps rest)
    (h' : Cuts p bs ps' rest') : ps = ps' ∧ rest = rest' := by
  induction h generalizing ps' rest' with
  | @rest bs hi =>
    cases h' with
    | rest => exact ⟨rfl, rfl⟩
    | @invalid index bs' _ ps hl hc hcut =>
      exfalso
      rcases hi with hi | ⟨cb, hi, _⟩
      · simp at hi; omega
      · rw [← hl, List.take_left, hc] at hi; cases hi
    | @call cb index args bs' _ ps hl hc ha hcut =>
      exfalso
      rcases hi with hi | ⟨cb, hi, hi'⟩
      · simp at hi; omega
      · rw [← hl, List.append_assoc, List.take_left, hc] at hi
        cases hi
        simp at hi'
        omega
  | @invalid index bs rest ps hl hc hcut ih =>
    generalize he : index ++ bs = l at h'
    cases h' with
    | rest hi =>
      exfalso
      subst he
      rcases hi with hi | ⟨cb, hi, _⟩
      · simp at hi; omega
      · rw [← hl, List.take_left, hc] at hi; cases hi
    | @invalid index' bs' _ ps' hl' hc' hcut' =>
      obtain ⟨rfl, rfl⟩ := List.append_inj he (by omega)
      obtain ⟨rfl, rfl⟩ := ih hcut'
      exact ⟨rfl, rfl⟩
    | @call cb index' args bs' _ ps' hl' hc' ha hcut' =>
      rw [List.append_assoc] at he
      obtain ⟨rfl, _⟩ := List.append_inj he (by omega)
      rw [hc] at hc'
      cases hc'
  | @call cb index args bs rest ps hl hc ha hcut ih =>
    generalize he : index ++ args ++ bs = l at h'
    cases h' with
    | rest hi =>
      exfalso
      subst he
      rcases hi with hi | ⟨cb, hi, hi'⟩
      · simp at hi; omega
      · rw [← hl, List.append_assoc, List.take_left, hc] at hi
        cases hi
        simp at hi'
        omega
    | @invalid index' bs' _ ps' hl' hc' hcut' =>
      rw [List.append_assoc] at he
      obtain ⟨rfl, _⟩ := List.append_inj he (by omega)
      rw [hc] at hc'
      cases hc'
    | @call cb' index' args' bs' _ ps' hl' hc' ha' hcut' =>
      rw [List.append_assoc, List.append_assoc] at he
      obtain ⟨h1, h2⟩ := List.append_inj he (by omega)
      clear he
      subst h1
      rw [hc] at hc'
      cases hc'
      obtain ⟨rfl, rfl⟩ := List.append_inj h2 (by omega)
      obtain ⟨rfl, rfl⟩ := ih hcut'
      exact ⟨rfl, rfl⟩

/-- The claim of C41 on a given stream: putting the bytes calls the callbacks of the packets in order on the values that the bytes stand
for, with the expected statuses, and leaves the dispatcher in the middle of the last packet. -/
def FramesWell (P : Platform) (p : Proto σ) (b : Buf σ) (w : σ) (bs : List Byte) (ps : List (Packet σ)) (rest : List Byte) : Prop :=
  match serveAll p rest ps w with
  | .ret sts w' => ∃ b', puts P bs (b, w) = .ret sts (b', w') ∧ Pending b' rest
  | .threw w' => ∃ b', puts P bs (b, w) = .threw (b', w')
  | .fault f => puts P bs (b, w) = .fault f

/-- C41 as stated: every stream. -/
def C41_Statement : Prop :=
  ∀ (σ : Type) (P : Platform) (K : Keyring) (f : Features) (defs : Nat → List Val → Eff σ (Option Val)) (shared : Bool)
    (b : Buf σ) (w : σ) (bs : List Byte) (ps : List (Packet σ)) (rest : List Byte),
    Setting P K f defs → ResponsesFit K shared → Reachable P K f defs shared (b, w) → Pending b [] →
    Cuts (protoOf K defs) bs ps rest → FramesWell P (protoOf K defs) b w bs ps rest

/-- A keyring with one function, `void set(bool)`. -/
def boolRing : Keyring := ⟨.little, .twosComplement, [⟨1, [.bool], none⟩]⟩

theorem bool_setting (f : Features) : Setting pcMacros boolRing f (fun _ _ => (pure none : Eff Unit _)) where
  valid := pcMacros_valid
  ring := ⟨by decide, by simp [boolRing, SigOk, Ty.WFs, Ty.WF, PackedAll, Packed]⟩
  sup := pcMacros_supported _ _
  sizes := by simp [boolRing, Ty.sizeof, wireSize]
  typed := by
    intro d hd args w r w' _ h
    simp only [boolRing, List.mem_singleton] at hd
    subst hd
    cases h
    simp [RetOk]

/-- C41 does not hold on all streams: as C07, decoding a `bool` from a byte which is neither 0 nor 1 is undefined (with the endianess macro). -/
theorem C41_full_statement_is_false : ¬ C41_Statement := by
  intro h
  have h1 := h Unit pcMacros boolRing .any (fun _ _ => pure none) false (fresh pcMacros boolRing .any (fun _ _ => pure none) (2 ^ 64 - 1) false) ()
    [0#8, 2#8] [.call ⟨⟨[.bool], none⟩, fun _ => pure none⟩ [0#8] [2#8]] [] (bool_setting .any)
    (by simp [ResponsesFit, boolRing, retSize]) ⟨_, _, .start⟩ (fresh_pending _ _ _ _ _ _)
    (Cuts.call (index := [0#8]) (args := [2#8]) (bs := []) rfl rfl rfl (.rest (Or.inl (by decide))))
  obtain ⟨b', h2, _⟩ := h1
  have h3 : puts pcMacros [0#8, 2#8] (fresh pcMacros boolRing .any (fun _ _ => (pure none : Eff Unit _)) (2 ^ 64 - 1) false, ()) =
      .fault .badBool := rfl
  rw [h3] at h2
  cases h2

section
variable {P : Platform} {K : Keyring} {f : Features} {defs : Nat → List Val → Eff σ (Option Val)} {shared : Bool}

/-- C41, partial: the streams in which the arguments of each request are `Readable` (encoding of values of the supported domain, or
parameters of types for which any bytes can be decoded). Holds between two packets of any history, for single and double buffered
dispatchers, whatever the callbacks do. Missing: arguments which cannot be decoded (undefined behaviour of the code, see
`C41_full_statement_is_false`), and responses larger than the output buffer (C43). -/
theorem C41_framing_partial (h : Setting P K f defs) (hf : ResponsesFit K shared) {b : Buf σ} {w : σ}
    (hr : Reachable P K f defs shared (b, w)) (hp : Pending b []) {bs rest : List Byte} {ps : List (Packet σ)}
    (hcut : Cuts (protoOf K defs) bs ps rest)
    (hd : ∀ cb index args, Packet.call cb index args ∈ ps → Readable P (protoOf K defs) cb args) :
    FramesWell P (protoOf K defs) b w bs ps rest := by
  obtain ⟨hb, hlen, _, out, hm⟩ := reachable_pending h hr hp
  have ho : OutRoom (protoOf K defs) b := by
    intro cb hcb
    obtain ⟨d, hd, rfl⟩ := protoOf_mem hcb
    rw [hlen]; exact hf d hd
  have := puts_cuts h.valid hcut hd (w := w) hm.inp hb ho
  unfold FramesWell
  revert this
  cases serveAll (protoOf K defs) rest ps w with
  | ret sts w' => rintro ⟨b', h1, h2, _⟩; exact ⟨b', h1, pending_relIn h2⟩
  | threw w' => exact id
  | fault f => exact id

/-- C41, all the streams, for the keyrings whose parameter types can be decoded from any bytes. -/
theorem C41_any_bytes_partial (h : Setting P K f defs) (hf : ResponsesFit K shared) (hs : AllDecodeSafe P K) {b : Buf σ} {w : σ}
    (hr : Reachable P K f defs shared (b, w)) (hp : Pending b []) (bs : List Byte) :
    ∃ ps rest, Cuts (protoOf K defs) bs ps rest ∧ FramesWell P (protoOf K defs) b w bs ps rest := by
  obtain ⟨ps, rest, hcut⟩ := C41_cuts_exist (p := protoOf K defs) (idxBytes_pos h.ring.1).1 bs
  refine ⟨ps, rest, hcut, C41_framing_partial h hf hr hp hcut ?_⟩
  have : ∀ {bs rest : List Byte} {ps : List (Packet σ)}, Cuts (protoOf K defs) bs ps rest →
      ∀ cb index args, Packet.call cb index args ∈ ps → cb ∈ (protoOf K defs).cbs := by
    intro bs rest ps hcut
    induction hcut with
    | rest => intro _ _ _ hm; cases hm
    | invalid _ _ _ ih => intro cb index args hm; exact ih cb index args (by simpa using hm)
    | call _ hc _ _ ih =>
      intro cb index args hm
      rcases List.mem_cons.1 hm with hm | hm
      · cases hm; exact mem_of_get hc
      · exact ih cb index args hm
  intro cb index args hm
  obtain ⟨d, hd, rfl⟩ := protoOf_mem (this hcut cb index args hm)
  exact Or.inl (hs d hd)

end

example : FramesWell pc (protoOf ledRing ledDefs) (fresh pc ledRing .any ledDefs (2 ^ 64 - 1) true) ([], [], [])
    [1#8, 9#8, 2#8, 5#8, 6#8, 0#8, 1#8]
    [.call ⟨⟨[], none⟩, ledDefs 2⟩ [1#8] [], .invalid [9#8], .call ⟨⟨[.arr (.uint 1) 2], some (.sint 2)⟩, ledDefs 3⟩ [2#8] [5#8, 6#8]]
    [0#8, 1#8] :=
  C41_framing_partial (led_setting .any) (led_fit true) (led_start .any true _) (fresh_pending _ _ _ _ _ _)
    (Cuts.call (index := [1#8]) (args := []) rfl rfl rfl (Cuts.invalid (index := [9#8]) rfl rfl
      (Cuts.call (index := [2#8]) (args := [5#8, 6#8]) rfl rfl rfl
        (Cuts.rest (Or.inr ⟨⟨⟨[.uint 2, .uint 1], some (.uint 2)⟩, ledDefs 1⟩, rfl, by decide⟩)))))
    (by
      intro cb index args hm
      simp only [List.mem_cons, List.not_mem_nil, or_false, reduceCtorEq, false_or, Packet.call.injEq] at hm
      rcases hm with ⟨rfl, _, _⟩ | ⟨rfl, _, _⟩ <;> exact Or.inl (by simp [DecodeSafeAll, DecodeSafe]))

example (bs : List Byte) : ∃ ps rest, Cuts (protoOf ledRing ledDefs) bs ps rest ∧
    FramesWell pc (protoOf ledRing ledDefs) (fresh pc ledRing .any ledDefs (2 ^ 64 - 1) true) ([], [], []) bs ps rest :=
  C41_any_bytes_partial (led_setting .any) (led_fit true) led_decode (led_start .any true _) (fresh_pending _ _ _ _ _ _) bs

/-- There is one way to cut this stream. -/
example {ps : List (Packet (List Byte × List (List Val) × List Byte))} {rest : List Byte}
    (h : Cuts (protoOf ledRing ledDefs) [1#8, 9#8, 0#8, 1#8] ps rest) :
    ps = [.call ⟨⟨[], none⟩, ledDefs 2⟩ [1#8] [], .invalid [9#8]] ∧ rest = [0#8, 1#8] :=
  C41_cuts_unique h (Cuts.call (index := [1#8]) (args := []) rfl rfl rfl (Cuts.invalid (index := [9#8]) rfl rfl
    (Cuts.rest (Or.inr ⟨⟨⟨[.uint 2, .uint 1], some (.uint 2)⟩, ledDefs 1⟩, rfl, by decide⟩))))

example (bs : List Byte) : ∃ ps rest, Cuts (protoOf ledRing ledDefs) bs ps rest := C41_cuts_exist (by decide) bs

end Upd
