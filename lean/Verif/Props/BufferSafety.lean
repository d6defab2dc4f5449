import Verif.Props.Buffered

/-!
# Buffered dispatchers: bounds of the buffers (C42, C43)
-/

namespace Upd
open Spec TypeList

variable {σ : Type}

/-! ## C42 -/

/-- C42 as stated: whatever the history, exceptions of any origin being caught, the next call does not overrun the input buffer (unless it
comes from the getter, the putter or a callback given by the user). -/
def C42_Statement : Prop :=
  ∀ (σ : Type) (P : Platform) (K : Keyring) (f : Features) (defs : Nat → List Val → Eff σ (Option Val)) (shared : Bool) (sizeMax : Nat)
    (w0 : σ) (st : BState σ) (op : Op σ), Setting P K f defs → ReachAny P (fresh P K f defs sizeMax shared, w0) st → op.Ok P →
    (∀ d ∈ K.decls, ∀ args w, defs d.name args w ≠ .fault .ibufOverrun) → ¬ op.UserFault .ibufOverrun →
    op.run P st ≠ .fault .ibufOverrun

/-- A keyring with one function, `void fail()`. -/
def failRing : Keyring := ⟨.little, .twosComplement, [⟨1, [], none⟩]⟩

/-- `fail` throws an exception. -/
def failDefs : Nat → List Val → Eff Unit (Option Val) := fun _ _ w => .threw w

theorem fail_setting (f : Features) : Setting pc failRing f failDefs where
  valid := pc_valid
  ring := ⟨by decide, by simp [failRing, SigOk, Ty.WFs, PackedAll]⟩
  sup := pc_supported _ _
  sizes := by simp [failRing]
  typed := by intro d hd args w r w' _ h; cases h

/-- C42 does not hold after a callback has thrown an exception which has been caught: the state of the dispatcher is not restored
(include/upd/buffered_dispatcher.hpp:260-272), and the next byte is written past the end of the input buffer. (Here a single buffered dispatcher: with a
double buffered one, this keyring would need an output buffer of size 0, which is an extension of compilers.) -/
theorem C42_full_statement_is_false : ¬ C42_Statement := by
  intro h
  exact h Unit pc failRing .any failDefs true (2 ^ 64 - 1) () _ (.put 0#8) (fail_setting .any)
    (.threw (.put 0#8) .start trivial rfl) trivial (fun _ _ _ _ => by simp [failDefs]) (fun h => h) rfl

section
variable {P : Platform} {K : Keyring} {f : Features} {defs : Nat → List Val → Eff σ (Option Val)} {shared : Bool}

/-- C42, partial: the only undefined behaviours of a member function, after any history in which no exception thrown by a callback has
been caught, are: a response larger than the output buffer (C43); argument bytes which cannot be decoded (C07); what the callbacks,
getters and putters of the user do. In particular the input buffer is never accessed out of bounds, no null action is called, and the
loops of `read_from` and `write_to` end. Missing: histories in which an exception thrown by a callback is caught
(`C42_full_statement_is_false`), and user-defined types larger in their serialized form than in memory (`Setting.sizes`). -/
theorem C42_faults_partial (h : Setting P K f defs) {st : BState σ} (hr : Reachable P K f defs shared st) (op : Op σ) (hop : op.Ok P)
    {flt : Fault} (hf : op.run P st = .fault flt) :
    (flt = .obufOverrun ∧ ¬ ResponsesFit K shared) ∨
    ((flt = .signedOverflow ∨ flt = .badBool) ∧ ¬ AllDecodeSafe P K) ∨
    op.UserFault flt ∨ ∃ d ∈ K.decls, ∃ args w, defs d.name args w = .fault flt := by
  obtain ⟨b, w⟩ := st
  obtain ⟨hb, hlen, _, m, hm⟩ := reachable_inv h hr
  have := op_outcome h.valid hm hb op hop w
  rw [hf] at this
  rcases this with ⟨_, ⟨h1, cb, h2, h3⟩ | ⟨h1, cb, h2, h3⟩ | ⟨cb, h2, args, w1, h3⟩⟩ | h1
  · obtain ⟨d, hd, rfl⟩ := protoOf_mem h2
    refine Or.inl ⟨h1, fun hall => ?_⟩
    have := hall d hd
    rw [hlen] at h3
    exact Nat.not_le_of_lt h3 this
  · obtain ⟨d, hd, rfl⟩ := protoOf_mem h2
    exact Or.inr (Or.inl ⟨h1, fun hall => h3 (hall d hd)⟩)
  · obtain ⟨d, hd, rfl⟩ := protoOf_mem h2
    exact Or.inr (Or.inr (Or.inr ⟨d, hd, args, w1, h3⟩))
  · exact Or.inr (Or.inr (Or.inl h1))

/-- C42: the input buffer. -/
theorem C42_input_buffer_partial (h : Setting P K f defs) {st : BState σ} (hr : Reachable P K f defs shared st) (op : Op σ)
    (hop : op.Ok P) (hd : ∀ d ∈ K.decls, ∀ args w, defs d.name args w ≠ .fault .ibufOverrun)
    (hu : ¬ op.UserFault .ibufOverrun) : op.run P st ≠ .fault .ibufOverrun := by
  intro hf
  rcases C42_faults_partial h hr op hop hf with ⟨h1, _⟩ | ⟨h1 | h1, _⟩ | h1 | ⟨d, h1, args, w, h2⟩
  · cases h1
  · cases h1
  · cases h1
  · exact hu h1
  · exact hd d h1 args w h2

/-- C42 and C43 together: no undefined behaviour at all if the responses fit in the output buffer, the parameters can be decoded from any
bytes, and the code of the user has none. -/
theorem C42_no_fault_partial (h : Setting P K f defs) (ho : ResponsesFit K shared) (hs : AllDecodeSafe P K)
    (hd : ∀ d ∈ K.decls, ∀ args w flt, defs d.name args w ≠ .fault flt) {st : BState σ}
    (hr : Reachable P K f defs shared st) (op : Op σ) (hop : op.Ok P) (hu : ∀ flt, ¬ op.UserFault flt) (flt : Fault) :
    op.run P st ≠ .fault flt := by
  intro hf
  rcases C42_faults_partial h hr op hop hf with ⟨_, h1⟩ | ⟨_, h1⟩ | h1 | ⟨d, h1, args, w, h2⟩
  · exact h1 ho
  · exact h1 hs
  · exact hu flt h1
  · exact hd d h1 args w flt h2

end

/-- A keyring with one function, `uint16_t get()`. -/
def getRing : Keyring := ⟨.little, .twosComplement, [⟨1, [], some (.uint 2)⟩]⟩

/-- `get` returns 0x1234. -/
def getDefs : Nat → List Val → Eff Unit (Option Val) := fun _ _ w => .ret (some (.int 0x1234)) w

theorem get_setting (f : Features) : Setting pc getRing f getDefs where
  valid := pc_valid
  ring := ⟨by decide, by simp [getRing, SigOk, Ty.WFs, Ty.WF, PackedAll, Packed]⟩
  sup := pc_supported _ _
  sizes := by simp [getRing]
  typed := by
    intro d hd args w r w' _ h
    simp only [getRing, List.mem_singleton] at hd
    subst hd
    cases h
    simp [RetOk, Val.Fits]

/-- A keyring with one function, `uint16_t widen(uint8_t)`. -/
def widenRing : Keyring := ⟨.little, .twosComplement, [⟨1, [.uint 1], some (.uint 2)⟩]⟩

/-- `widen` returns 0x1234. -/
def widenDefs : Nat → List Val → Eff Unit (Option Val) := fun _ _ w => .ret (some (.int 0x1234)) w

theorem widen_setting (f : Features) : Setting pc widenRing f widenDefs where
  valid := pc_valid
  ring := ⟨by decide, by simp [widenRing, SigOk, Ty.WFs, Ty.WF, PackedAll, Packed]⟩
  sup := pc_supported _ _
  sizes := by simp [widenRing, Ty.sizeof, wireSize]
  typed := by
    intro d hd args w r w' _ h
    simp only [widenRing, List.mem_singleton] at hd
    subst hd
    cases h
    simp [RetOk, Val.Fits]

/-- A dispatcher which has received the index of `widen`. -/
def widenLoading : Buf Unit := { fresh pc widenRing .any widenDefs 65535 false with
  ibuf := [0#8, pc.junk 1], ibufNext := 1, indexLoaded := true, loadCount := 1 }

theorem led_noFault : ∀ d ∈ ledRing.decls, ∀ args w flt, ledDefs d.name args w ≠ .fault flt := by
  intro d _ args w flt h
  unfold ledDefs at h
  split at h <;> cases h

example (st : BState (List Byte × List (List Val) × List Byte)) (hr : Reachable pc ledRing .weakReference ledDefs true st)
    (dest : Byte → Eff (List Byte × List (List Val) × List Byte) Unit) (hd : ∀ x w flt, dest x w ≠ .fault flt) (flt : Fault) :
    (Op.writeTo dest).run pc st ≠ .fault flt :=
  C42_no_fault_partial (led_setting _) (led_fit true) led_decode led_noFault hr (.writeTo dest) trivial
    (fun flt h => by obtain ⟨x, w, h⟩ := h; exact hd x w flt h) flt

example (st : BState (List Byte × List (List Val) × List Byte)) (hr : Reachable pc ledRing .any ledDefs true st) (x : Byte) :
    (Op.put x).run pc st ≠ .fault .ibufOverrun :=
  C42_input_buffer_partial (led_setting _) hr _ trivial (fun d hd args w => led_noFault d hd args w _) (fun h => h)

example (src : Eff Unit Byte) (flt : Fault)
    (h : (Op.readFrom src).run pc (fresh pc widenRing .any widenDefs (2 ^ 64 - 1) false, ()) = .fault flt) :
    (flt = .obufOverrun ∧ ¬ ResponsesFit widenRing false) ∨ ((flt = .signedOverflow ∨ flt = .badBool) ∧ ¬ AllDecodeSafe pc widenRing) ∨
    (Op.readFrom src).UserFault flt ∨ ∃ d ∈ widenRing.decls, ∃ args w, widenDefs d.name args w = .fault flt :=
  C42_faults_partial (widen_setting .any) ⟨_, _, .start⟩ (.readFrom src) trivial h

example : Reachable pc ledRing .any ledDefs true (fresh pc ledRing .any ledDefs (2 ^ 64 - 1) true, ([], [], [])) := led_start _ _ _

/-! ## C43 -/

/-- C43 as stated: no call overruns the output buffer (unless the overrun comes from the code of the user). -/
def C43_Statement : Prop :=
  ∀ (σ : Type) (P : Platform) (K : Keyring) (f : Features) (defs : Nat → List Val → Eff σ (Option Val)) (shared : Bool)
    (st : BState σ) (op : Op σ), Setting P K f defs → Reachable P K f defs shared st → op.Ok P →
    (∀ d ∈ K.decls, ∀ args w, defs d.name args w ≠ .fault .obufOverrun) → ¬ op.UserFault .obufOverrun →
    op.run P st ≠ .fault .obufOverrun

/-- C43 does not hold: the size of the output buffer is computed from the sizes of the parameters rather than from those of the returned
values (include/upd/buffered_dispatcher.hpp:35-36). The output buffer for a function which takes a `uint8_t` and returns a
`uint16_t` has one byte; the first response writes out of it. -/
theorem C43_full_statement_is_false : ¬ C43_Statement := by
  intro h
  have h1 : (Op.put 0#8).run pc (fresh pc widenRing .any widenDefs 65535 false, ()) = .ret () (widenLoading, ()) := rfl
  have h2 : (Op.put 7#8).run pc (widenLoading, ()) = .fault .obufOverrun := rfl
  exact h Unit pc widenRing .any widenDefs false (widenLoading, ()) (.put 7#8) (widen_setting .any)
    ⟨65535, (), .ret (.put 0#8) .start trivial h1⟩ trivial (fun _ _ _ _ => by simp [widenDefs]) (fun h => h) h2

section
variable {P : Platform} {K : Keyring} {f : Features} {defs : Nat → List Val → Eff σ (Option Val)} {shared : Bool}

/-- C43, partial: the keyrings of which each returned value fits in the output buffer (`ResponsesFit`: for double buffered dispatchers, the
serialized size of each returned value is at most the size of the largest parameter list; for single buffered ones, the width of the index
is added). Missing: the other keyrings, for which it does not hold (`C43_overflow`). -/
theorem C43_output_buffer_partial (h : Setting P K f defs) (ho : ResponsesFit K shared) {st : BState σ}
    (hr : Reachable P K f defs shared st) (op : Op σ) (hop : op.Ok P)
    (hd : ∀ d ∈ K.decls, ∀ args w, defs d.name args w ≠ .fault .obufOverrun) (hu : ¬ op.UserFault .obufOverrun) :
    op.run P st ≠ .fault .obufOverrun := by
  intro hf
  rcases C42_faults_partial h hr op hop hf with ⟨_, h1⟩ | ⟨h1 | h1, _⟩ | h1 | ⟨d, h1, args, w, h2⟩
  · exact h1 ho
  · cases h1
  · cases h1
  · exact hu h1
  · exact hd d h1 args w h2

/-- C43, the other keyrings: if the value returned by the `i`-th function is larger than the output buffer, then in any state between two
packets, putting a request for this function overruns the output buffer. -/
theorem C43_overflow (h : Setting P K f defs) {b : Buf σ} {w : σ} (hr : Reachable P K f defs shared (b, w)) (hp : Pending b [])
    {i : Nat} (hi : i < K.decls.length) (ho : outRoom K shared < retSize K.decls[i].sig.ret) {args : List Val}
    (hf : Val.FitsAll (Safe P K.s) K.decls[i].sig.params args) {r : Option Val} {w' : σ}
    (hd : defs K.decls[i].name args w = .ret r w') :
    puts P (request K.e K.s K.idxBytes i K.decls[i].sig.params args) (b, w) = .fault .obufOverrun := by
  obtain ⟨hb, hlen, _, out, hm⟩ := reachable_pending h hr hp
  obtain ⟨h1, h2, h3⟩ := request_parts h hi hf
  have hcb := hb.serves.sig _ (mem_of_get h2)
  have hdec : Decodes P (protoOf K defs) ⟨K.decls[i].sig, defs K.decls[i].name⟩ (wires K.e K.s K.decls[i].sig.params args) :=
    decodes_args h.valid hb.serves.sup hcb hf
  have hun : unwires (protoOf K defs).e (protoOf K defs).s K.decls[i].sig.params
      (wires K.e K.s K.decls[i].sig.params args) = args := unwires_wires h.valid h.sup hcb.1 hcb.2.1 hf
  have hne : request K.e K.s K.idxBytes i K.decls[i].sig.params args ≠ [] := by
    intro h0
    have := congrArg List.length h0
    have hpos := hb.serves.pos
    unfold request at this
    rw [List.length_append, h1] at this
    simp at this
    omega
  obtain ⟨init, x, hl⟩ : ∃ init x, request K.e K.s K.idxBytes i K.decls[i].sig.params args = init ++ [x] :=
    ⟨_, _, (List.dropLast_concat_getLast hne).symm⟩
  rw [hl]
  have hinc : Incomplete (protoOf K defs) ([] ++ init) :=
    incomplete_call h1 h2 h3 (l' := [x]) (by rw [List.nil_append, ← hl]; rfl) (by simp)
  have hcl : (protoOf K defs).classify ([] ++ init ++ [x]) = .request ⟨K.decls[i].sig, defs K.decls[i].name⟩
      (wires K.e K.s K.decls[i].sig.params args) := by rw [List.nil_append, ← hl]; exact classify_call h1 h2 h3
  obtain ⟨b1, h4, h5, _, h6⟩ := puts_last h.valid w (x := x) hm.inp hb hinc
  obtain ⟨b2, h7, h8⟩ := put_request_eq h.valid h4 (hb.same h5) hcl hdec w
  simp only [hun, hd] at h8
  have hret := h.typed _ (List.getElem_mem hi) _ _ _ _ hf hd
  have hfit : ¬ (response K.e K.s K.decls[i].sig.ret r).length ≤ b2.out.length := by
    rw [response_length hcb hret, (h5.trans h7).outLen, hlen]; exact Nat.not_le_of_lt ho
  have h9 : Buf.put P x (b1, w) = .fault .obufOverrun := h8.trans (if_neg hfit)
  rw [h6]
  exact Eff.bind_fault h9

end

example (st : BState (List Byte × List (List Val) × List Byte)) (hr : Reachable pc ledRing .any ledDefs false st) (x : Byte) :
    (Op.put x).run pc st ≠ .fault .obufOverrun :=
  C43_output_buffer_partial (led_setting _) (led_fit false) hr _ trivial (fun d hd args w => led_noFault d hd args w _) (fun h => h)

example : puts pc [0#8, 7#8] (fresh pc widenRing .any widenDefs (2 ^ 64 - 1) false, ()) = .fault .obufOverrun :=
  C43_overflow (widen_setting .any) ⟨_, _, .start⟩ (fresh_pending _ _ _ _ _ _) (i := 0) (by decide) (by decide) (args := [.int 7])
    (by simp [widenRing, Val.FitsAll, Val.Fits]) rfl

/-- `int32_t get()`: not even a single buffered dispatcher has enough room. -/
example : ¬ ResponsesFit ⟨.little, .twosComplement, [⟨1, [], some (.sint 4)⟩]⟩ true := by
  intro h
  exact absurd (h ⟨1, [], some (.sint 4)⟩ (by simp)) (by decide)

end Upd
