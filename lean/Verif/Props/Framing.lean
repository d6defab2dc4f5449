import Verif.Lemmas.Faults
import Verif.Props.BufferSafety

/-!
# C07, C41 and C43, exactly

The full statements of C07, C41 and C43 are false. The theorems of this file leave no hypothesis on the bytes received nor on the returned values: they
say which bytes cannot be decoded, for every type, and what any stream does, up to the packet which leads to undefined behaviour if there is one.
-/

namespace Upd
open Spec

/-- C07, exactly, for every type: the bytes are decoded as the value that they stand for, unless one of the `bool` or signed integers in it cannot be
decoded. -/
theorem C07_decoding_exact {P : Platform} (hP : P.Valid) {e : Endian} {s : Mode} (hs : Supported P e s) {t : Ty} (hw : t.WF) (hp : Packed t)
    {mem : Mem} {off : Nat} (h : off + wireSize t ≤ mem.length) :
    readAs P e s t mem off =
      match undecodable P e s t (slice mem off (wireSize t)) with
      | none => .ok (unwire e s t (slice mem off (wireSize t)))
      | some f => .error f :=
  readAs_exact hP hs t mem off hw hp h

/-- An array of pairs, the `bool` of the second of which is neither 0 nor 1. -/
example : readAs pcMacros .little .twosComplement (.arr (.user 2 [.uint 1, .bool]) 2) [9#8, 7#8, 1#8, 7#8, 3#8] 1 = .error .badBool := by
  rw [C07_decoding_exact pcMacros_valid (pcMacros_supported _ _) (by simp [Ty.WF, Ty.WFs])
    (by simp [Packed, PackedAll, Ty.sizeof, wireSize, wireSizes]) (by decide)]
  rfl

variable {σ : Type} {P : Platform} {K : Keyring} {f : Features} {defs : Nat → List Val → Eff σ (Option Val)} {shared : Bool}

/-- C41 (and C43), exactly: what putting any stream does, between two packets of any history. Nothing is assumed of the bytes, of the callbacks (besides
the type of what they return), nor of the size of the responses. -/
theorem C41_framing_exact (h : Setting P K f defs) {b : Buf σ} {w : σ} (hr : Reachable P K f defs shared (b, w)) (hp : Pending b [])
    {bs rest : List Byte} {ps : List (Packet σ)} (hcut : Cuts (protoOf K defs) bs ps rest) :
    match serveExact P (protoOf K defs) (outRoom K shared) rest ps w with
    | .ret sts w' => ∃ b', puts P bs (b, w) = .ret sts (b', w') ∧ Pending b' rest
    | .threw w' => ∃ b', puts P bs (b, w) = .threw (b', w')
    | .fault f => puts P bs (b, w) = .fault f := by
  obtain ⟨hb, hlen, _, out, hm⟩ := reachable_pending h hr hp
  have := puts_exact h.valid hcut (w := w) hm.inp hb hlen
  revert this
  cases serveExact P (protoOf K defs) (outRoom K shared) rest ps w with
  | ret sts w' => rintro ⟨b', h1, h2, _⟩; exact ⟨b', h1, pending_relIn h2⟩
  | threw w' => exact id
  | fault f => exact id

/-- A request which cannot be decoded, after one which can and before another one. -/
example : puts pcMacros [0#8, 1#8, 0#8, 2#8, 0#8] (fresh pcMacros boolRing .any (fun _ _ => (pure none : Eff Unit _)) (2 ^ 64 - 1) false, ()) =
    .fault .badBool :=
  C41_framing_exact (bool_setting .any) ⟨_, _, .start⟩ (fresh_pending _ _ _ _ _ _)
    (Cuts.call (index := [0#8]) (args := [1#8]) (cb := ⟨⟨[.bool], none⟩, fun _ => pure none⟩) rfl rfl rfl
      (Cuts.call (index := [0#8]) (args := [2#8]) (cb := ⟨⟨[.bool], none⟩, fun _ => pure none⟩) rfl rfl rfl
        (Cuts.rest (bs := [0#8]) (Or.inr ⟨⟨⟨[.bool], none⟩, fun _ => pure none⟩, rfl, by decide⟩))))

/-- C41 on the streams whose packets can be decoded. More general than `C41_framing_partial`: it is enough that these bytes can be decoded, whether or not
they are what the library would have sent. -/
theorem C41_decodable_partial (h : Setting P K f defs) (hf : ResponsesFit K shared) {b : Buf σ} {w : σ}
    (hr : Reachable P K f defs shared (b, w)) (hp : Pending b []) {bs rest : List Byte} {ps : List (Packet σ)}
    (hcut : Cuts (protoOf K defs) bs ps rest)
    (hd : ∀ cb index args, Packet.call cb index args ∈ ps → undecodables P K.e K.s cb.sig.params args = none) :
    FramesWell P (protoOf K defs) b w bs ps rest := by
  have h1 := C41_framing_exact h hr hp hcut
  have h2 : serveExact P (protoOf K defs) (outRoom K shared) rest ps = serveAll (protoOf K defs) rest ps := by
    clear h1 hp hr
    induction hcut with
    | rest => rfl
    | invalid _ _ _ ih =>
      rw [serveExact, serveAll, ih fun cb index args hm => hd cb index args (by simp [hm])]
    | @call cb index args _ _ _ _ hc _ _ ih =>
      obtain ⟨d, hd', hcb⟩ := protoOf_mem (mem_of_get hc)
      have hfit : retSize d.sig.ret ≤ outRoom K shared := hf d hd'
      subst hcb
      rw [serveExact, serveAll, ih fun cb index args hm => hd cb index args (by simp [hm])]
      show (match undecodables P K.e K.s _ args with | some f => _ | none => _) = _
      rw [hd _ index args (by simp)]
      simp only
      rw [if_neg (Nat.not_lt.2 hfit)]
  rw [h2] at h1
  exact h1

/-- A keyring with a parameter which is not `DecodeSafe`. -/
example : FramesWell pcMacros (protoOf boolRing fun _ _ => (pure none : Eff Unit _))
    (fresh pcMacros boolRing .any (fun _ _ => (pure none : Eff Unit _)) (2 ^ 64 - 1) false) () [0#8, 1#8, 7#8, 0#8]
    [.call ⟨⟨[.bool], none⟩, fun _ => pure none⟩ [0#8] [1#8], .invalid [7#8]] [0#8] :=
  C41_decodable_partial (bool_setting .any) (by simp [ResponsesFit, boolRing, retSize]) ⟨_, _, .start⟩ (fresh_pending _ _ _ _ _ _)
    (Cuts.call (index := [0#8]) (args := [1#8]) rfl rfl rfl (Cuts.invalid (index := [7#8]) rfl rfl
      (Cuts.rest (bs := [0#8]) (Or.inr ⟨⟨⟨[.bool], none⟩, fun _ => pure none⟩, rfl, by decide⟩))))
    (by
      intro cb index args hm
      simp only [List.mem_cons, List.not_mem_nil, or_false, reduceCtorEq, Packet.call.injEq] at hm
      obtain ⟨rfl, rfl, rfl⟩ := hm
      rfl)

/-- C43, exactly: the bytes of a request, whatever they are, overrun the output buffer if and only if the arguments can be decoded, the callback returns, and
the returned type is larger than the buffer. -/
theorem C43_overflow_iff (h : Setting P K f defs) {b : Buf σ} {w : σ} (hr : Reachable P K f defs shared (b, w)) (hp : Pending b [])
    {cb : Callback σ} {index args : List Byte} (hl : index.length = K.idxBytes)
    (hc : (protoOf K defs).cbs[wireValue K.e index]? = some cb) (ha : args.length = wireSizes cb.sig.params)
    (hf : ∀ vs w, cb.fn vs w ≠ .fault .obufOverrun) :
    puts P (index ++ args) (b, w) = .fault .obufOverrun ↔
      undecodables P K.e K.s cb.sig.params args = none ∧ (∃ r w', cb.fn (unwires K.e K.s cb.sig.params args) w = .ret r w') ∧
      outRoom K shared < retSize cb.sig.ret := by
  obtain ⟨hb, hlen, _, out, hm⟩ := reachable_pending h hr hp
  have h1 := puts_call_exact h.valid w hm.inp hb hl hc ha
  have hg := hb.serves.sig cb (mem_of_get hc)
  change match undecodables P K.e K.s cb.sig.params args with | some f => _ | none => _ at h1
  cases hu : undecodables P K.e K.s cb.sig.params args with
  | some f =>
    rw [hu] at h1
    simp only [reduceCtorEq, false_and, iff_false]
    rw [h1]
    rintro h2
    injection h2 with h2
    subst h2
    have hx := readAll_exact h.valid h.sup cb.sig.params args 0 hg.1 hg.2.1 (by omega)
    rw [slice_all ha, hu] at hx
    rcases readAll_cases h.valid h.sup cb.sig.params args 0 hg.1 (packedAll_loose _ hg.2.1)
      (by rw [packedAll_serSizes _ hg.2.1]; omega) with ⟨vs, hvs, _⟩ | ⟨f', hf', hdf⟩
    · rw [hvs] at hx; cases hx
    · rw [hf'] at hx
      injection hx with hx
      subst hx
      rcases hdf with hdf | hdf <;> cases hdf
  | none =>
    rw [hu] at h1
    simp only [true_and]
    change match cb.fn (unwires K.e K.s cb.sig.params args) w with | .ret _ w' => _ | .threw w' => _ | .fault f => _ at h1
    cases hfn : cb.fn (unwires K.e K.s cb.sig.params args) w with
    | ret r w' =>
      rw [hfn] at h1
      simp only [hlen] at h1
      split at h1
      · rename_i hlt
        exact ⟨fun _ => ⟨⟨r, w', rfl⟩, hlt⟩, fun _ => h1⟩
      · rename_i hlt
        obtain ⟨b', h1, _⟩ := h1
        rw [h1]
        simp [hlt]
    | threw w' =>
      rw [hfn] at h1
      obtain ⟨b', h1⟩ := h1
      rw [h1]
      simp
    | fault f =>
      rw [hfn] at h1
      rw [h1]
      simp only [reduceCtorEq, exists_false, false_and, iff_false]
      intro h2
      injection h2 with h2
      subst h2
      exact hf _ _ hfn

/-- `uint16_t widen(uint8_t)` on a double buffered dispatcher: every request overruns the output buffer. -/
example (x : Byte) : puts pc [0#8, x] (fresh pc widenRing .any widenDefs (2 ^ 64 - 1) false, ()) = .fault .obufOverrun :=
  (C43_overflow_iff (index := [0#8]) (args := [x]) (widen_setting .any) ⟨_, _, .start⟩ (fresh_pending _ _ _ _ _ _) rfl rfl rfl
    (by intro vs w h; cases h)).2 ⟨rfl, ⟨_, _, rfl⟩, by decide⟩

end Upd
