import Verif.Props.BufferSafety

/-!
# Buffered dispatchers: callbacks which throw (C51)
-/

namespace Upd
open Spec TypeList

variable {σ : Type}

/-- C51 as stated: after an exception thrown by a callback has left `put` and has been caught, the next request is processed. -/
def C51_Statement : Prop :=
  ∀ (σ : Type) (P : Platform) (K : Keyring) (f : Features) (defs : Nat → List Val → Eff σ (Option Val)) (shared : Bool) (b b' : Buf σ)
    (w w' : σ) (x : Byte), Setting P K f defs → Reachable P K f defs shared (b, w) → ResponsesFit K shared →
    Buf.put P x (b, w) = .threw (b', w') →
    ∀ (i : Nat) (hi : i < K.decls.length) (args : List Val) (r : Option Val) (w'' : σ),
      Val.FitsAll (Safe P K.s) K.decls[i].sig.params args → defs K.decls[i].name args w' = .ret r w'' →
      ∃ b'' sts, puts P (request K.e K.s K.idxBytes i K.decls[i].sig.params args) (b', w') = .ret sts (b'', w'')

/-- `void fail()`, `void ping(uint8_t)`. -/
def faultyRing : Keyring := ⟨.little, .twosComplement, [⟨1, [], none⟩, ⟨2, [.uint 1], none⟩]⟩

/-- `fail` throws; `ping` does nothing. -/
def faultyDefs : Nat → List Val → Eff Unit (Option Val) := fun name _ w => if name = 1 then .threw w else .ret none w

theorem faulty_setting (f : Features) : Setting pc faultyRing f faultyDefs where
  valid := pc_valid
  ring := ⟨by decide, by simp [faultyRing, SigOk, Ty.WFs, Ty.WF, PackedAll, Packed]⟩
  sup := pc_supported _ _
  sizes := by simp [faultyRing, Ty.sizeof, wireSize]
  typed := by
    intro d hd args w r w' _ h
    simp only [faultyRing, List.mem_cons, List.not_mem_nil, or_false] at hd
    rcases hd with rfl | rfl
    · cases h
    · cases h; simp [RetOk]

theorem faulty_fit (shared : Bool) : ResponsesFit faultyRing shared := by
  cases shared <;> simp [ResponsesFit, faultyRing, retSize]

/-- C51 does not hold: `call()` (include/upd/buffered_dispatcher.hpp:260-272) resets the state of the dispatcher after the callback has returned,
hence not if it throws. Here a request for `ping` follows a request for `fail`: the second byte of the former is written out of the input buffer. -/
theorem C51_full_statement_is_false : ¬ C51_Statement := by
  intro h
  obtain ⟨b'', sts, h'⟩ := h Unit pc faultyRing .any faultyDefs false (fresh pc faultyRing .any faultyDefs 65535 false) _ () () 0#8
    (faulty_setting .any) ⟨_, _, .start⟩ (faulty_fit false) rfl 1 (by decide) [.int 7] none ()
    (by simp [faultyRing, Val.FitsAll, Val.Fits]) rfl
  cases h'

/-- `put` in any state in which it has only to store the byte. -/
theorem put_loading_raw {P : Platform} {b : Buf σ} (hroom : b.ibufNext < b.ibuf.length) (hn : b.loadCount ≠ 1)
    (hs : 0 < b.sizeMax) (x : Byte) (w : σ) :
    Buf.put P x (b, w) = .ret .loading
      ({ b with ibuf := b.ibuf.set b.ibufNext x, ibufNext := b.ibufNext + 1, loadCount := decSize b.sizeMax b.loadCount }, w) := by
  have hp : b.pushIn x = .ok { b with ibuf := b.ibuf.set b.ibufNext x, ibufNext := b.ibufNext + 1 } := by
    unfold Buf.pushIn
    rw [if_pos hroom]
  have hd : decSize b.sizeMax b.loadCount > 0 := by
    unfold decSize
    split <;> omega
  unfold Buf.put Buf.putWith
  show (Eff.lift (b.pushIn x) >>= _) (b, w) = _
  rw [hp, Eff.lift_ok, pure_bind]
  show (modifyBuf _ >>= _) (b, w) = _
  simp only
  rw [if_pos hd]
  rfl

/-- Bytes received by a dispatcher which expects more bytes than its input buffer can hold. -/
theorem puts_stuck {P : Platform} : ∀ {xs : List Byte} {b : Buf σ} {w : σ}, b.ibuf.length ≤ b.sizeMax → b.ibufNext ≤ b.ibuf.length →
    (b.loadCount = 0 ∨ b.ibuf.length < b.ibufNext + b.loadCount) →
    (b.ibufNext + xs.length ≤ b.ibuf.length → ∃ b', puts P xs (b, w) = .ret (List.replicate xs.length .loading) (b', w)) ∧
    (b.ibuf.length < b.ibufNext + xs.length → puts P xs (b, w) = .fault .ibufOverrun)
  | [], b, w, _, h, _ => ⟨fun _ => ⟨b, rfl⟩, fun h' => by simp at h'; omega⟩
  | x :: xs, b, w, hs, hn, hl => by
    by_cases hroom : b.ibufNext < b.ibuf.length
    · have h1 := put_loading_raw (P := P) hroom (by omega) (by omega) x w
      have ih := puts_stuck (P := P) (xs := xs) (w := w)
        (b := { b with ibuf := b.ibuf.set b.ibufNext x, ibufNext := b.ibufNext + 1, loadCount := decSize b.sizeMax b.loadCount })
        (by simpa using hs) (by simp; omega)
        (by right; simp only [List.length_set]; unfold decSize; split <;> omega)
      simp only [List.length_set] at ih
      simp only [List.length_cons]
      show (b.ibufNext + (xs.length + 1) ≤ _ → ∃ b', (Buf.put P x >>= fun st => puts P xs >>= fun sts => pure (st :: sts) :
        Eff (BState σ) (List Status)) (b, w) = _) ∧ (_ → (Buf.put P x >>= fun st => puts P xs >>= fun sts => pure (st :: sts) :
        Eff (BState σ) (List Status)) (b, w) = _)
      rw [Eff.bind_ret h1]
      refine ⟨fun h => ?_, fun h => ?_⟩
      · obtain ⟨b', h2⟩ := ih.1 (by omega)
        exact ⟨b', by rw [Eff.bind_ret h2]; rfl⟩
      · rw [Eff.bind_fault (ih.2 (by omega))]
    · refine ⟨fun h => by simp at h; omega, fun _ => ?_⟩
      have hp : b.pushIn x = .error .ibufOverrun := by
        unfold Buf.pushIn
        rw [if_neg hroom]
      have h1 : Buf.put P x (b, w) = .fault .ibufOverrun := by
        unfold Buf.put Buf.putWith
        show (Eff.lift (b.pushIn x) >>= _) (b, w) = _
        rw [hp]
        rfl
      exact Eff.bind_fault h1

section
variable {P : Platform} {K : Keyring} {f : Features} {defs : Nat → List Val → Eff σ (Option Val)} {shared : Bool}

/-- What `put` has done when it throws. -/
theorem put_threw_rel (hP : P.Valid) {p : Proto σ} {b b' : Buf σ} {w w' : σ} {l : List Byte} (hm : RelIn p b l) (hb : BufOk P p b)
    {x : Byte} (ht : Buf.put P x (b, w) = .threw (b', w')) :
    (∃ cb ∈ p.cbs, ∃ args, Val.FitsAll (Safe P p.s) cb.sig.params args ∧ cb.fn args w = .threw w') ∧
      Same b b' ∧ b'.loadCount = 0 ∧ b'.ibufNext = l.length + 1 ∧ b'.indexLoaded = true ∧ l.length < b.ibuf.length ∧ Unread b' [] := by
  rcases put_cases hP hm hb x w with ⟨_, b1, h1, _⟩ | ⟨_, b1, h1, _⟩ | ⟨cb, args, hc, hcb, _, h0⟩
  · rw [ht] at h1; cases h1
  · rw [ht] at h1; cases h1
  · rcases h0 with ⟨hdec, _⟩ | ⟨f, _, _, h1⟩
    · obtain ⟨b1, ⟨h2, h3, h4, h7⟩, h5⟩ := put_request_eq_full hP hm hb hc hdec w
      rw [ht] at h5
      cases hfn : cb.fn (unwires p.e p.s cb.sig.params args) w with
      | fault f => rw [hfn] at h5; cases h5
      | ret r w1 =>
        rw [hfn] at h5
        simp only at h5
        split at h5 <;> cases h5
      | threw w1 =>
        rw [hfn] at h5
        simp only at h5
        injection h5 with h5
        injection h5 with h5 h6
        subst h5 h6
        refine ⟨⟨cb, hcb, _, hdec.2, hfn⟩, ⟨h2.disp, h2.shared, h2.ilen, h2.olen, h2.size⟩, h3, h4, h7, hm.lt hb, rfl, Nat.zero_le _, slice_zero _ _⟩
    · rw [ht] at h1; cases h1

theorem put_threw (h : Setting P K f defs) {b b' : Buf σ} {w w' : σ} (hr : Reachable P K f defs shared (b, w)) {l : List Byte}
    (hp : Pending b l) {x : Byte} (ht : Buf.put P x (b, w) = .threw (b', w')) :
    (∃ cb ∈ (protoOf K defs).cbs, ∃ args, Val.FitsAll (Safe P K.s) cb.sig.params args ∧ cb.fn args w = .threw w') ∧
      Same b b' ∧ b'.loadCount = 0 ∧ b'.ibufNext = l.length + 1 ∧ b'.indexLoaded = true ∧ l.length < b.ibuf.length ∧ Unread b' [] := by
  obtain ⟨hb, _, _, out, hm⟩ := reachable_pending h hr hp
  exact put_threw_rel h.valid hm.inp hb ht

/-- C51, what does hold: when `put` throws, the exception comes from one of the callbacks, called on arguments in its domain; the world is as this
callback left it; no response is offered. Missing: the dispatcher does not process the next request (`C51_stuck`). -/
theorem C51_throw_partial (h : Setting P K f defs) {b b' : Buf σ} {w w' : σ} (hr : Reachable P K f defs shared (b, w)) {x : Byte}
    (ht : Buf.put P x (b, w) = .threw (b', w')) :
    (∃ d ∈ K.decls, ∃ args, Val.FitsAll (Safe P K.s) d.sig.params args ∧ defs d.name args w = .threw w') ∧ Unread b' [] := by
  obtain ⟨_, _, _, m, hm⟩ := reachable_inv h hr
  obtain ⟨⟨cb, h1, args, h2, h3⟩, _, _, _, _, _, h4⟩ := put_threw h hr (pending_relIn hm.inp) ht
  obtain ⟨d, hd, rfl⟩ := protoOf_mem h1
  exact ⟨⟨d, hd, args, h2, h3⟩, h4⟩

/-- C51, what happens instead, whatever the keyring and the callback: after the exception, bytes are stored and ignored as long as they fit in the
input buffer (LOADING_PACKET, no callback called); then the first byte which does not fit is written out of bounds. `l` are the bytes of the packet
received before the last one; `std::size_t` can hold the size of the buffer. -/
theorem C51_stuck (h : Setting P K f defs) {b b' : Buf σ} {w w' : σ} (hr : Reachable P K f defs shared (b, w)) {l : List Byte}
    (hp : Pending b l) {x : Byte} (ht : Buf.put P x (b, w) = .threw (b', w')) (hs : neededInput K ≤ b'.sizeMax) (xs : List Byte) :
    (l.length + 1 + xs.length ≤ neededInput K → ∃ b'', puts P xs (b', w') = .ret (List.replicate xs.length .loading) (b'', w')) ∧
    (neededInput K < l.length + 1 + xs.length → puts P xs (b', w') = .fault .ibufOverrun) := by
  obtain ⟨_, h1, h2, h3, _, h4, _⟩ := put_threw h hr hp ht
  have hlen : b'.ibuf.length = neededInput K := by
    obtain ⟨sizeMax, w0, hr⟩ := hr
    rw [h1.ilen, (reach_inv h hr).1.ilen, fresh_ilen]
  have := puts_stuck (P := P) (xs := xs) (b := b') (w := w') (by omega) (by rw [h1.ilen]; omega) (Or.inl h2)
  rwa [hlen, h3] at this

end

/-- The first byte of a request for `fail` throws. -/
theorem faulty_throws : ∃ b', b'.sizeMax = 65535 ∧ Buf.put pc 0#8 (fresh pc faultyRing .any faultyDefs 65535 false, ()) = .threw (b', ()) :=
  ⟨_, rfl, rfl⟩

example : ∃ b', Buf.put pc 0#8 (fresh pc faultyRing .any faultyDefs 65535 false, ()) = .threw (b', ()) ∧
    (∃ b'', puts pc [1#8] (b', ()) = .ret [.loading] (b'', ())) ∧ puts pc [1#8, 7#8] (b', ()) = .fault .ibufOverrun := by
  obtain ⟨b', h0, h⟩ := faulty_throws
  have h1 : neededInput faultyRing ≤ b'.sizeMax := by rw [h0]; decide
  have h2 := C51_stuck (shared := false) (faulty_setting .any) ⟨_, _, .start⟩ (fresh_pending _ _ _ _ _ _) h h1
  exact ⟨b', h, (h2 [1#8]).1 (by decide), (h2 [1#8, 7#8]).2 (by decide)⟩

example : ∃ b', Buf.put pc 0#8 (fresh pc faultyRing .any faultyDefs 65535 false, ()) = .threw (b', ()) ∧ Unread b' [] := by
  obtain ⟨b', _, h⟩ := faulty_throws
  exact ⟨b', h, (C51_throw_partial (shared := false) (faulty_setting .any) ⟨65535, (), .start⟩ h).2⟩

end Upd
