import Verif.Lemmas.Caught

/-!
# C42 and C51, when exceptions are caught

The full statements of C42 and C51 are false because the dispatcher is not restored when a callback throws. The theorems of this file say what happens in
all the histories, any exception being caught. `neededInput K ≤ sizeMax`: `std::size_t` can hold the size of the input buffer.
-/

namespace Upd
open Spec

variable {σ : Type} {P : Platform} {K : Keyring} {f : Features} {defs : Nat → List Val → Eff σ (Option Val)} {shared : Bool} {sizeMax : Nat} {w0 : σ}

theorem stuck_jammed {i : Nat} {b : Buf σ} (h : Stuck i b) : Jammed P b (b.ibuf.length - b.ibufNext) := by
  intro w xs
  have := puts_stuck (P := P) (xs := xs) (b := b) (w := w) h.size h.le h.load
  have hl := h.le
  exact ⟨fun h => this.1 (by omega), fun h => this.2 (by omega)⟩

/-- C51, exactly: any calls of `put`, `get` and `is_loaded` on a double buffered dispatcher, in any reachable state, every exception being caught, have the
outcome (results, calls of callbacks, exceptions, undefined behaviour) which they have on the machine which interprets no byte any more once a callback
has thrown. -/
theorem C51_exact (h : Setting P K f defs) {b : Buf σ} {w : σ} (hr : Reachable P K f defs false (b, w)) (hs : neededInput K ≤ b.sizeMax)
    {l out : List Byte} (hp : Pending b l) (hu : Unread b out) (ops : List Io) :
    SameOutcome (runCaught (Io.run P) ops (b, w))
      (runCaught (Io.runC P (protoOf K defs) (neededInput K) (neededOutput K)) ops (⟨.pending l, out⟩, w)) := by
  obtain ⟨hb, hlen, hsh, out', hm⟩ := reachable_pending h hr hp
  have := unread_unique hm.outp hu
  simp only at this
  subst this
  have hil : b.ibuf.length = neededInput K := by
    obtain ⟨sizeMax, w0, hr⟩ := hr
    rw [(reach_inv h hr).1.ilen, fresh_ilen]
  exact (runCaught_follows h.valid (m := ⟨.pending l, _⟩) ⟨hm.inp, hm.outp⟩ hb hil hlen hs fun hs => by rw [hsh] at hs; cases hs).sameOutcome

/-- C51, exactly, for a single buffered dispatcher on which each response is drained before the next byte is put. -/
theorem C51_exact_single (h : Setting P K f defs) {b : Buf σ} {w : σ} (hr : Reachable P K f defs true (b, w)) (hs : neededInput K ≤ b.sizeMax)
    {l out : List Byte} (hp : Pending b l) (hu : Unread b out) (ops : List Io) (hd : DrainedCaught P ops (b, w)) :
    SameOutcome (runCaught (Io.run P) ops (b, w))
      (runCaught (Io.runC P (protoOf K defs) (neededInput K) (neededInput K)) ops (⟨.pending l, out⟩, w)) := by
  obtain ⟨hb, hlen, hsh, out', hm⟩ := reachable_pending h hr hp
  have := unread_unique hm.outp hu
  simp only at this
  subst this
  have hil : b.ibuf.length = neededInput K := by
    obtain ⟨sizeMax, w0, hr⟩ := hr
    rw [(reach_inv h hr).1.ilen, fresh_ilen]
  exact (runCaught_follows h.valid (m := ⟨.pending l, _⟩) ⟨hm.inp, hm.outp⟩ hb hil hlen hs fun _ => hd).sameOutcome

/-- C51, for ever: a callback throws during a `put`, in any state of any history, any exception being caught. Whatever is done with the dispatcher afterwards,
it ignores the bytes it receives until it overruns its input buffer, and `read_from` never returns. (`put`, `get`, `read_from`, `write_to`,
`operator()` and `reply` may be called.) -/
theorem C51_forever (h : Setting P K f defs) (hs : neededInput K ≤ sizeMax) {b b' : Buf σ} {w w' : σ}
    (hr : ReachAny P (fresh P K f defs sizeMax shared, w0) (b, w)) {x : Byte} (ht : Buf.put P x (b, w) = .threw (b', w')) {st : BState σ}
    (hr' : ReachAny P (b', w') st) :
    (∃ k, k < neededInput K ∧ Jammed P st.1 k) ∧ ∀ src w a st', Buf.readFrom P src (st.1, w) ≠ .ret a st' := by
  obtain ⟨hsame, hi⟩ := reachAny_inv h hs hr
  have hz : b.ibuf.length ≤ b.sizeMax := by
    rw [hsame.ilen, hsame.size, fresh_ilen]
    cases shared <;> exact hs
  rcases hi with ⟨m, hm⟩ | ⟨hm, _⟩
  · obtain ⟨h1, h2, h3, _, _⟩ := put_threw_stuck h.valid hm.inp ((fresh_ok h sizeMax shared).same hsame) hz ht
    suffices hst : Same b' st.1 ∧ Stuck 1 st.1 by
      refine ⟨⟨_, ?_, stuck_jammed hst.2⟩, ?_⟩
      · have := hst.2.ge
        have hl : st.1.ibuf.length = neededInput K := by rw [hst.1.ilen, h1.ilen, hsame.ilen, fresh_ilen]
        have := hst.2.le
        omega
      · intro src w a st' he
        have := readFrom_stuck (P := P) src hst.2 w
        rw [he] at this
        exact this
    induction hr' with
    | start => exact ⟨Same.refl _, h2⟩
    | world w' _ ih => exact ih
    | @ret st st' op _ hop he ih =>
      obtain ⟨hs1, hs2⟩ := ih
      have := op_stuck h.valid hs2 op hop st.2
      rw [show (st.1, st.2) = st from rfl, he] at this
      exact ⟨hs1.trans this.1, this.2⟩
    | @threw st st' op _ hop he ih =>
      obtain ⟨hs1, hs2⟩ := ih
      have := op_stuck h.valid hs2 op hop st.2
      rw [show (st.1, st.2) = st from rfl, he] at this
      exact ⟨hs1.trans this.1, this.2⟩
  · rcases put_stuck (P := P) hm x w with ⟨_, b1, h1, _⟩ | ⟨_, h1⟩ <;> (rw [ht] at h1; cases h1)

/-- C51, all the histories, any exception being caught: either the dispatcher works, and any further calls of `put`, `get` and `is_loaded` have the same outcome
as on the machine; or a callback has thrown, and the dispatcher ignores the bytes it receives until it overruns its input buffer. -/
theorem C51_histories (h : Setting P K f defs) (hs : neededInput K ≤ sizeMax) {b : Buf σ} {w : σ}
    (hr : ReachAny P (fresh P K f defs sizeMax shared, w0) (b, w)) :
    (∃ l out, Pending b l ∧ Unread b out ∧ ∀ ops, (shared = true → DrainedCaught P ops (b, w)) →
      SameOutcome (runCaught (Io.run P) ops (b, w))
        (runCaught (Io.runC P (protoOf K defs) (neededInput K) (outRoom K shared)) ops (⟨.pending l, out⟩, w))) ∨
    ((∃ d ∈ K.decls, ∃ args w w', defs d.name args w = .threw w') ∧ (∃ k, k < neededInput K ∧ Jammed P b k) ∧
      ∀ src w a st', Buf.readFrom P src (b, w) ≠ .ret a st') := by
  obtain ⟨hsame, hi⟩ := reachAny_inv h hs hr
  have hl : b.ibuf.length = neededInput K := by rw [hsame.ilen, fresh_ilen]
  have hz : neededInput K ≤ b.sizeMax := by
    rw [hsame.size]
    cases shared <;> exact hs
  rcases hi with ⟨m, hm⟩ | ⟨hm, cb, hcb, args, w1, w2, ht⟩
  · refine .inl ⟨m.pending, m.out, pending_relIn hm.inp, hm.outp, fun ops hd => ?_⟩
    refine (runCaught_follows h.valid (m := ⟨.pending m.pending, m.out⟩) ⟨hm.inp, hm.outp⟩ ((fresh_ok h sizeMax shared).same hsame) hl ?_ hz ?_).sameOutcome
    · rw [hsame.outLen]; exact fresh_outLen _ _ _ _ _ _
    · intro hsh
      refine hd ?_
      rw [hsame.shared] at hsh
      cases shared
      · cases hsh
      · rfl
  · obtain ⟨d, hd, rfl⟩ := protoOf_mem hcb
    refine .inr ⟨⟨d, hd, args, w1, w2, ht⟩, ⟨_, ?_, stuck_jammed hm⟩, ?_⟩
    · have hm : Stuck 1 b := hm
      have := hm.ge
      have := hm.le
      omega
    · intro src w a st' he
      have := readFrom_stuck (P := P) src hm w
      rw [he] at this
      exact this

/-- C42, all the histories, any exception being caught: the undefined behaviours of a member function are those of `C42_faults_partial`, and the overrun of the
input buffer by a dispatcher whose callback has thrown. -/
theorem C42_faults_any (h : Setting P K f defs) (hs : neededInput K ≤ sizeMax) {st : BState σ}
    (hr : ReachAny P (fresh P K f defs sizeMax shared, w0) st) (op : Op σ) (hop : op.Ok P) {flt : Fault} (hf : op.run P st = .fault flt) :
    (flt = .obufOverrun ∧ ¬ ResponsesFit K shared) ∨
    ((flt = .signedOverflow ∨ flt = .badBool) ∧ ¬ AllDecodeSafe P K) ∨
    op.UserFault flt ∨ (∃ d ∈ K.decls, ∃ args w, defs d.name args w = .fault flt) ∨
    (flt = .ibufOverrun ∧ op.Input ∧ (∃ k, Jammed P st.1 k) ∧ ∃ d ∈ K.decls, ∃ args w w', defs d.name args w = .threw w') := by
  obtain ⟨b, w⟩ := st
  obtain ⟨hsame, hi⟩ := reachAny_inv h hs hr
  rcases hi with ⟨m, hm⟩ | ⟨hm, cb, hcb, args, w1, w2, ht⟩
  · have := op_outcome h.valid hm ((fresh_ok h sizeMax shared).same hsame) op hop w
    rw [hf] at this
    rcases this with ⟨_, ⟨h1, cb, h2, h3⟩ | ⟨h1, cb, h2, h3⟩ | ⟨cb, h2, args, w1, h3⟩⟩ | h1
    · obtain ⟨d, hd, rfl⟩ := protoOf_mem h2
      refine .inl ⟨h1, fun hall => ?_⟩
      have := hall d hd
      rw [hsame.outLen, fresh_outLen] at h3
      exact Nat.not_le_of_lt h3 this
    · obtain ⟨d, hd, rfl⟩ := protoOf_mem h2
      exact .inr (.inl ⟨h1, fun hall => h3 (hall d hd)⟩)
    · obtain ⟨d, hd, rfl⟩ := protoOf_mem h2
      exact .inr (.inr (.inr (.inl ⟨d, hd, args, w1, h3⟩)))
    · exact .inr (.inr (.inl h1))
  · have := op_stuck h.valid hm op hop w
    rw [hf] at this
    obtain ⟨d, hd, rfl⟩ := protoOf_mem hcb
    rcases this with ⟨h1, h2⟩ | h1
    · exact .inr (.inr (.inr (.inr ⟨h2, h1, ⟨_, stuck_jammed hm⟩, d, hd, args, w1, w2, ht⟩)))
    · exact .inr (.inr (.inl h1))

/-- C42, exactly: after any history, any exception being caught, a byte overruns the input buffer if and only if the dispatcher ignores the bytes it receives
and is full. -/
theorem C42_overrun_iff (h : Setting P K f defs) (hs : neededInput K ≤ sizeMax)
    (hd : ∀ d ∈ K.decls, ∀ args w, defs d.name args w ≠ .fault .ibufOverrun) {b : Buf σ} {w : σ}
    (hr : ReachAny P (fresh P K f defs sizeMax shared, w0) (b, w)) (x : Byte) :
    Buf.put P x (b, w) = .fault .ibufOverrun ↔ Jammed P b 0 := by
  constructor
  · intro he
    obtain ⟨hsame, hi⟩ := reachAny_inv h hs hr
    rcases hi with ⟨m, hm⟩ | ⟨hm, _⟩
    · have := put_outcome h.valid hm ((fresh_ok h sizeMax shared).same hsame) x w
      rw [he] at this
      rcases this with ⟨h1, _⟩ | ⟨h1 | h1, _⟩ | ⟨cb, h2, args, w1, h3⟩
      · cases h1
      · cases h1
      · cases h1
      · obtain ⟨d, hd', rfl⟩ := protoOf_mem h2
        exact (hd d hd' args w1 h3).elim
    · rcases put_stuck (P := P) hm x w with ⟨_, b1, h1, _⟩ | ⟨h1, _⟩
      · rw [he] at h1; cases h1
      · have hm : Stuck 1 b := hm
        have := stuck_jammed (P := P) hm
        have h1 : ¬ b.ibufNext < b.ibuf.length := h1
        rwa [show b.ibuf.length - b.ibufNext = 0 by omega] at this
  · intro hj
    have := (hj w [x]).2 (by simp)
    cases he : Buf.put P x (b, w) with
    | fault f => rw [show puts P [x] (b, w) = .fault f from Eff.bind_fault he] at this; cases this; rfl
    | threw t => rw [show puts P [x] (b, w) = .threw t from Eff.bind_threw he] at this; cases this
    | ret a t => rw [show puts P [x] (b, w) = _ from Eff.bind_ret he] at this; cases this

/-! ## Non-vacuity -/

/-- `fail` (which throws), then `ping(7)`: the machine, and hence the dispatcher, overruns the input buffer at the third byte. -/
example : SameOutcome (runCaught (Io.run pc) [.put 0#8, .put 1#8, .put 7#8] (fresh pc faultyRing .any faultyDefs 65535 false, ()))
    (runCaught (Io.runC pc (protoOf faultyRing faultyDefs) (neededInput faultyRing) (neededOutput faultyRing)) [.put 0#8, .put 1#8, .put 7#8]
      (⟨.pending [], []⟩, ())) :=
  C51_exact (faulty_setting .any) ⟨65535, (), .start⟩ (by decide) (fresh_pending _ _ _ _ _ _) (fresh_rel (faulty_setting .any) _ _).outp _

example : runCaught (Io.runC pc (protoOf faultyRing faultyDefs) (neededInput faultyRing) (neededOutput faultyRing)) [.put 0#8, .put 1#8]
      (⟨.pending [], []⟩, ()) = .ret [none, some (.status .loading)] (⟨.stuck 2, []⟩, ()) ∧
    runCaught (Io.runC pc (protoOf faultyRing faultyDefs) (neededInput faultyRing) (neededOutput faultyRing)) [.put 0#8, .put 1#8, .put 7#8]
      (⟨.pending [], []⟩, ()) = .fault .ibufOverrun := ⟨rfl, rfl⟩

/-- After `fail` has thrown, whatever is done. -/
example {st : BState Unit} : ∃ b, Buf.put pc 0#8 (fresh pc faultyRing .any faultyDefs 65535 false, ()) = .threw (b, ()) ∧
    (ReachAny pc (b, ()) st → ∃ k, k < 2 ∧ Jammed pc st.1 k) := by
  obtain ⟨b, _, h⟩ := faulty_throws
  exact ⟨b, h, fun hr => (C51_forever (faulty_setting .any) (by decide) .start h hr).1⟩

/-- The input buffer of `failRing` holds one byte: it is full once `fail` has thrown. -/
theorem fail_throws : ∃ b, Buf.put pc 0#8 (fresh pc failRing .any failDefs 65535 true, ()) = .threw (b, ()) ∧
    Buf.put pc 0#8 (b, ()) = .fault .ibufOverrun := ⟨_, rfl, rfl⟩

example : ∃ b, Buf.put pc 0#8 (fresh pc failRing .any failDefs 65535 true, ()) = .threw (b, ()) ∧ Jammed pc b 0 := by
  obtain ⟨b, h1, h2⟩ := fail_throws
  exact ⟨b, h1, (C42_overrun_iff (fail_setting .any) (by decide) (fun _ _ _ _ => by simp [failDefs])
    (.threw (.put 0#8) .start trivial (Eff.bind_threw h1)) 0#8).1 h2⟩

/-- Both cases of `C51_histories` occur: the second one here. -/
example : ∃ b, ReachAny pc (fresh pc failRing .any failDefs 65535 true, ()) (b, ()) ∧ ∃ k, k < 1 ∧ Jammed pc b k := by
  obtain ⟨b, h1, _⟩ := fail_throws
  exact ⟨b, .threw (.put 0#8) .start trivial (Eff.bind_threw h1), (C51_forever (fail_setting .any) (by decide) .start h1 .start).1⟩

example {op : Op Unit} (hop : op.Ok pc) {flt : Fault} (hu : ¬ op.UserFault flt) :
    ∃ b, ReachAny pc (fresh pc failRing .any failDefs 65535 true, ()) (b, ()) ∧ (op.run pc (b, ()) = .fault flt → flt = .ibufOverrun) := by
  obtain ⟨b, h1, _⟩ := fail_throws
  refine ⟨b, .threw (.put 0#8) .start trivial (Eff.bind_threw h1), fun hf => ?_⟩
  rcases C42_faults_any (fail_setting .any) (by decide) (.threw (.put 0#8) .start trivial (Eff.bind_threw h1)) op hop hf with
    ⟨_, h⟩ | ⟨_, h⟩ | h | ⟨_, _, _, _, h⟩ | ⟨h, _⟩
  · exact (h (by simp [ResponsesFit, failRing, retSize])).elim
  · exact (h (by simp [AllDecodeSafe, failRing, DecodeSafeAll])).elim
  · exact (hu h).elim
  · cases h
  · exact h

example (hd : DrainedCaught pc [.put 0#8, .put 1#8] (fresh pc failRing .any failDefs 65535 true, ())) :
    SameOutcome (runCaught (Io.run pc) [.put 0#8, .put 1#8] (fresh pc failRing .any failDefs 65535 true, ()))
      (runCaught (Io.runC pc (protoOf failRing failDefs) (neededInput failRing) (neededInput failRing)) [.put 0#8, .put 1#8] (⟨.pending [], []⟩, ())) :=
  C51_exact_single (fail_setting .any) ⟨65535, (), .start⟩ (by decide) (fresh_pending _ _ _ _ _ _) (fresh_rel (fail_setting .any) _ _).outp _ hd

/-- Whatever has been done, exceptions included: the dispatcher is at some point of a packet, or no packet gets in any more. -/
example {b : Buf Unit} (hr : ReachAny pc (fresh pc failRing .any failDefs 65535 true, ()) (b, ())) :
    (∃ l out, Pending b l ∧ Unread b out) ∨ ∀ src w a st', Buf.readFrom pc src (b, w) ≠ .ret a st' :=
  (C51_histories (fail_setting .any) (by decide) hr).imp (fun ⟨l, out, hp, hu, _⟩ => ⟨l, out, hp, hu⟩) (·.2.2)

end Upd
