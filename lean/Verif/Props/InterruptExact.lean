import Verif.Props.Interrupt

/-!
# C56 and C58, exactly

What each interruption point leads to, and when the result is one which the handler could have had by running before or after the interrupted function.
-/

namespace Upd
open Spec TypeList

variable {σ : Type} {P : Platform} {K : Keyring} {f : Features} {defs : Nat → List Val → Eff σ (Option Val)}

/-- A `put` which completes a request does not depend on what has been read of the previous response. -/
theorem put_resolved (h : Setting P K f defs) {b b1 : Buf σ} {w w1 : σ} (hr : Reachable P K f defs false (b, w)) {x : Byte}
    (hput : Buf.put P x (b, w) = .ret .resolved (b1, w1)) {resp : List Byte} (hu1 : Unread b1 resp) :
    (∀ n, Buf.put P x ({ b with obufNext := n }, w) = .ret .resolved (b1, w1)) ∧ b1.obufNext = 0 ∧ b1.obufBottom = resp.length ∧
      b1.out = splice b.out 0 resp ∧ resp.length ≤ b.out.length := by
  obtain ⟨hb, _, hsh, m, hm⟩ := reachable_inv h hr
  rcases put_cases h.valid hm.inp hb x w with ⟨_, b1', h1, _⟩ | ⟨_, b1', h1, _⟩ | ⟨cb, args, hc, hcb, hl, h0⟩
  · rw [hput] at h1; cases h1
  · rw [hput] at h1; cases h1
  · obtain ⟨_, _, h5, h3, h4⟩ := putWith_request_full h.valid (Buf.call P) hm.inp hb hc w
    have hs : Same b (b.loaded x) := ⟨rfl, rfl, (stored_same b x).ilen, rfl, rfl⟩
    have hbl := hb.same hs
    have hout : (b.loaded x).out = b.out := by
      show (if b.shared = true then _ else _) = if b.shared = true then _ else _
      rw [hsh]
      rfl
    rcases h0 with ⟨hdec, _⟩ | ⟨f, _, _, h1⟩
    · have hcall := call_buf h.valid hbl.serves h3 (hbl.room cb hcb) (by rw [h4]; exact hdec) w
      have h5 : Buf.put P x (b, w) = _ := h5
      have h5' := h5
      rw [hput] at h5
      cases hfn : cb.fn (unwires (protoOf K defs).e (protoOf K defs).s cb.sig.params
          (slice (b.loaded x).ibuf (protoOf K defs).idxBytes (wireSizes cb.sig.params))) w with
      | fault f => rw [hfn] at hcall; rw [Eff.bind_fault hcall] at h5; cases h5
      | threw w' => rw [hfn] at hcall; rw [Eff.bind_threw hcall] at h5; cases h5
      | ret r w' =>
        rw [hfn] at hcall
        simp only at hcall
        split at hcall
        · rename_i hfit
          rw [Eff.bind_ret hcall] at h5
          cases h5
          have hresp := unread_unique (finish_unread hfit) hu1
          rw [hresp] at hcall hfit hu1 hput ⊢
          have hn : ((b.loaded x).finish (protoOf K defs).idxBytes resp).obufNext = 0 := by
            unfold Buf.finish
            exact pushAll_obufNext _ _
          refine ⟨fun n => ?_, hn, ?_, ?_, ?_⟩
          · obtain ⟨_, _, h6, _⟩ := putWith_request_full h.valid (Buf.call P) (relIn_next hm.inp n) (hb.same (same_next b n)) hc w
            rw [← hput, h5']
            exact h6
          · have := hu1.bottom
            omega
          · show (({ b.loaded x with obufBottom := 0, obufNext := 0 } : Buf σ).pushAll resp).out = _
            rw [pushAll_out]
            show splice (b.loaded x).out 0 resp = _
            rw [hout]
          · rw [← hout]; exact hfit
        · rw [Eff.bind_fault hcall] at h5; cases h5
    · rw [hput] at h1; cases h1

/-- What an interrupted `get()` returns and where it leaves `m_obuf_next`, when the handler completes a request whose response is `resp`: `mem` is the
output buffer before, in which the byte at position `n` was the next one. -/
def interruptedGet (pt : GetPoint) (mem resp : List Byte) (n : Nat) : Option Byte × Nat :=
  match pt with
  | .afterTest => ((splice mem 0 resp)[0]?, 1)
  | .afterLoad => ((splice mem 0 resp)[n]?, n + 1)
  | .afterStore => ((splice mem 0 resp)[n]?, 0)
  | .afterRead => (mem[n]?, n + 1)

theorem unread_head {b : Buf σ} {y : Byte} {out : List Byte} (hu : Unread b (y :: out)) : b.out[b.obufNext]? = some y := by
  have hbot := hu.bottom
  have hle := hu.le
  have hbs := hu.bytes
  simp only [List.length_cons] at hbot hbs
  rw [slice_succ (by omega)] at hbs
  injection hbs with hbs
  rw [List.getElem?_eq_getElem (by omega), hbs]

/-- C56, exactly: a response is being read (`y` is the next byte), and the handler completes a request whose response is `resp`. At each interruption point,
the byte returned by `get()` and the final state. Together with `C56_no_resolution_partial` and `C56_empty_partial`, all the cases in which the handler
returns. -/
theorem C56_resolution_exact (h : Setting P K f defs) {b b1 : Buf σ} {w w1 : σ} (hr : Reachable P K f defs false (b, w)) {y : Byte} {out : List Byte}
    (hu : Unread b (y :: out)) {x : Byte} (hput : Buf.put P x (b, w) = .ret .resolved (b1, w1)) {resp : List Byte} (hu1 : Unread b1 resp)
    (pt : GetPoint) :
    ∃ z, (interruptedGet pt b.out resp b.obufNext).1 = some z ∧ Buf.getInt (Buf.put P x) pt (b, w) =
      .ret (z, .resolved) ({ b1 with obufNext := (interruptedGet pt b.out resp b.obufNext).2 }, w1) := by
  obtain ⟨h1, h2, h3, h4, h5⟩ := put_resolved h hr hput hu1
  have hlen : (splice b.out 0 resp).length = b.out.length := splice_length (by omega)
  have hy := unread_head hu
  have hlt : b.obufNext < b.out.length := by
    have := hu.bottom
    have := hu.le
    simp only [List.length_cons] at *
    omega
  have hld : b.isLoaded = true := by rw [unread_isLoaded hu]; rfl
  unfold Buf.getInt
  cases pt with
  | afterTest =>
    refine ⟨(splice b.out 0 resp)[0]'(by omega), List.getElem?_eq_getElem _, ?_⟩
    show (if b.isLoaded = true then _ else _ : Eff (BState σ) (Byte × Status)) (b, w) = _
    rw [if_pos hld]
    show (Buf.put P x >>= _) (b, w) = _
    rw [Eff.bind_ret hput]
    have : b1.popOut = .ok ((splice b.out 0 resp)[0]'(by omega), { b1 with obufNext := 1 }) := by
      unfold Buf.popOut
      rw [h2, h4, List.getElem?_eq_getElem (by omega)]
    show (Eff.lift b1.popOut >>= _) (b1, w1) = _
    rw [this]
    rfl
  | afterLoad =>
    refine ⟨(splice b.out 0 resp)[b.obufNext]'(by omega), List.getElem?_eq_getElem _, ?_⟩
    show (if b.isLoaded = true then _ else _ : Eff (BState σ) (Byte × Status)) (b, w) = _
    rw [if_pos hld]
    show (Buf.put P x >>= _) (b, w) = _
    rw [Eff.bind_ret hput]
    have : ({ b1 with obufNext := b.obufNext + 1 } : Buf σ).outAt b.obufNext = .ok ((splice b.out 0 resp)[b.obufNext]'(by omega)) := by
      unfold Buf.outAt
      rw [show ({ b1 with obufNext := b.obufNext + 1 } : Buf σ).out = b1.out from rfl, h4, List.getElem?_eq_getElem (by omega)]
    show (Eff.lift (({ b1 with obufNext := b.obufNext + 1 } : Buf σ).outAt b.obufNext) >>= _) ({ b1 with obufNext := b.obufNext + 1 }, w1) = _
    rw [this]
    rfl
  | afterStore =>
    refine ⟨(splice b.out 0 resp)[b.obufNext]'(by omega), List.getElem?_eq_getElem _, ?_⟩
    show (if b.isLoaded = true then _ else _ : Eff (BState σ) (Byte × Status)) (b, w) = _
    rw [if_pos hld]
    show (Buf.put P x >>= _) ({ b with obufNext := b.obufNext + 1 }, w) = _
    rw [Eff.bind_ret (h1 _)]
    have : b1.outAt b.obufNext = .ok ((splice b.out 0 resp)[b.obufNext]'(by omega)) := by
      unfold Buf.outAt
      rw [h4, List.getElem?_eq_getElem (by omega)]
    show (Eff.lift (b1.outAt b.obufNext) >>= _) (b1, w1) = _
    rw [this]
    have hz : ({ b1 with obufNext := 0 } : Buf σ) = b1 := by
      cases b1
      simp only at h2
      subst h2
      rfl
    show _ = Res.ret _ (({ b1 with obufNext := 0 } : Buf σ), w1)
    rw [hz]
    rfl
  | afterRead =>
    refine ⟨y, hy, ?_⟩
    show (if b.isLoaded = true then _ else _ : Eff (BState σ) (Byte × Status)) (b, w) = _
    rw [if_pos hld]
    have : b.outAt b.obufNext = .ok y := by
      unfold Buf.outAt
      rw [hy]
    show (Eff.lift (b.outAt b.obufNext) >>= _) (b, w) = _
    rw [this]
    show (Buf.put P x >>= _) (b, w) = _
    rw [Eff.bind_ret hput]
    rfl

/-- When an interruption by a handler which completes a request is harmless; `n` bytes of the previous response have been read, `y` is the next one, `resp`
is the new response. -/
def Harmless (pt : GetPoint) (n : Nat) (y : Byte) (resp : List Byte) : Prop :=
  match pt with
  | .afterTest => resp ≠ []
  | .afterLoad => n = 0 ∧ resp ≠ []
  | .afterStore => resp[n]? = none ∨ resp[n]? = some y
  | .afterRead => n = 0 ∧ resp.head? = some y

/-- C56, which interruptions are harmless: when a response is being read and the handler completes a request, the interrupted `get()` has the same outcome
(byte, status, final state) as if the handler had run just before or just after it, if and only if `Harmless`. -/
theorem C56_serializable_iff (h : Setting P K f defs) {b b1 : Buf σ} {w w1 : σ} (hr : Reachable P K f defs false (b, w)) {y : Byte} {out : List Byte}
    (hu : Unread b (y :: out)) {x : Byte} (hput : Buf.put P x (b, w) = .ret .resolved (b1, w1)) {resp : List Byte} (hu1 : Unread b1 resp)
    (pt : GetPoint) :
    (Buf.getInt (Buf.put P x) pt (b, w) = (do let y ← Buf.get; let s ← Buf.put P x; pure (y, s) : Eff (BState σ) (Byte × Status)) (b, w) ∨
      Buf.getInt (Buf.put P x) pt (b, w) = (do let s ← Buf.put P x; let y ← Buf.get; pure (y, s) : Eff (BState σ) (Byte × Status)) (b, w)) ↔
    Harmless pt b.obufNext y resp := by
  obtain ⟨h1, h2, h3, h4, h5⟩ := put_resolved h hr hput hu1
  obtain ⟨z, hz, he⟩ := C56_resolution_exact h hr hu hput hu1 pt
  have hy := unread_head hu
  obtain ⟨b2, g1, _, _, rfl⟩ := get_cons hu w
  have hlt : b.obufNext < b.out.length := by
    have := hu.bottom
    have := hu.le
    simp only [List.length_cons] at *
    omega
  have e1 : (do let y ← Buf.get; let s ← Buf.put P x; pure (y, s) : Eff (BState σ) (Byte × Status)) (b, w) = .ret (y, .resolved) (b1, w1) := by
    rw [Eff.bind_ret g1, Eff.bind_ret (h1 _)]
    rfl
  have e2 : (do let s ← Buf.put P x; let y ← Buf.get; pure (y, s) : Eff (BState σ) (Byte × Status)) (b, w) =
      match resp with
      | [] => .ret (0#8, .resolved) (b1, w1)
      | r :: _ => .ret (r, .resolved) ({ b1 with obufNext := 1 }, w1) := by
    rw [Eff.bind_ret hput]
    cases resp with
    | nil => rw [Eff.bind_ret (get_empty hu1 w1)]; rfl
    | cons r rs =>
      obtain ⟨b3, g3, _, _, rfl⟩ := get_cons hu1 w1
      rw [Eff.bind_ret g3, h2]
      rfl
  rw [he, e1, e2]
  have hnxt : ∀ k : Nat, ({ b1 with obufNext := k } : Buf σ) = b1 ↔ k = 0 := fun k => by
    constructor
    · intro hk
      rw [← h2, ← hk]
    · rintro rfl
      cases b1
      simp only at h2
      subst h2
      rfl
  have hnxt1 : ∀ k : Nat, ({ b1 with obufNext := k } : Buf σ) = { b1 with obufNext := 1 } ↔ k = 1 := fun k => by
    constructor
    · intro hk
      injection hk
    · rintro rfl
      rfl
  have hA : (Res.ret (z, Status.resolved) (({ b1 with obufNext := (interruptedGet pt b.out resp b.obufNext).2 } : Buf σ), w1) =
      .ret (y, .resolved) (b1, w1)) ↔ z = y ∧ (interruptedGet pt b.out resp b.obufNext).2 = 0 := by
    rw [Res.ret.injEq, Prod.mk.injEq, Prod.mk.injEq, hnxt]
    simp
  rw [hA]
  cases resp with
  | nil =>
    simp only [splice_nil] at hz h4
    rw [Res.ret.injEq, Prod.mk.injEq, Prod.mk.injEq, hnxt]
    cases pt <;> simp only [interruptedGet, splice_nil, Harmless] at hz ⊢
    · simp
    · simp
    · rw [hy] at hz; cases hz; simp
    · simp
  | cons r rs =>
    rw [Res.ret.injEq, Prod.mk.injEq, Prod.mk.injEq, hnxt1]
    have hsp := fun i => splice_getElem? (m := b.out) (off := 0) (bs := r :: rs) (by omega) i
    cases pt <;> simp only [interruptedGet, Harmless, hsp] at hz ⊢
    · simp at hz ⊢
      exact hz.symm
    · constructor
      · rintro (⟨_, h0⟩ | ⟨⟨_, _⟩, h0, _⟩)
        · omega
        · exact ⟨by omega, by simp⟩
      · rintro ⟨h0, _⟩
        rw [h0] at hz
        simp at hz
        exact .inr ⟨⟨hz.symm, trivial⟩, by omega, trivial⟩
    · by_cases hn : b.obufNext < (r :: rs).length
      · rw [if_neg (by omega), if_pos (by omega), Nat.sub_zero] at hz
        rw [hz]
        simp
      · rw [if_neg (by omega), if_neg (by omega), hy] at hz
        cases hz
        simp only [and_self, true_or, true_iff]
        exact .inl (List.getElem?_eq_none (by omega))
    · rw [hy] at hz
      cases hz
      simp
      constructor
      · rintro ⟨rfl, h0⟩; exact ⟨by omega, rfl⟩
      · rintro ⟨h0, rfl⟩; exact ⟨rfl, by omega⟩

/-! ## C58 -/

theorem storeOut_last {b : Buf σ} {x : Byte} (h : b.obufBottom < b.out.length) (m : Nat) :
    ({ b with obufBottom := b.obufBottom + 1, obufNext := m } : Buf σ).storeOut b.obufBottom x = .ok { b.pushAll [x] with obufNext := m } := by
  have ho : ({ b with obufBottom := b.obufBottom + 1, obufNext := m } : Buf σ).out = b.out := rfl
  unfold Buf.storeOut
  rw [ho, if_pos h]
  unfold Buf.out at h
  unfold Buf.pushAll
  cases hs : b.shared <;> simp only [hs, if_true, if_false, Bool.false_eq_true] at h ⊢ <;> rw [splice_one h] <;> rfl

/-- The bytes of a response once `m_obuf_bottom` is past the interruption point. -/
theorem putAll_mid_after {isr : Eff (BState σ) Unit} {k i : Nat} {w : σ} : ∀ {bs : List Byte} {b : Buf σ},
    b.obufBottom + bs.length ≤ b.out.length → (k < b.obufBottom ∨ b.obufBottom + bs.length ≤ k) →
    putAll (obufDestMid isr k) bs (i, (b, w)) = .ret () (i, (b.pushAll bs, w))
  | [], b, _, _ => by rw [pushAll_nil]; rfl
  | x :: bs, b, h, hk => by
    simp only [List.length_cons] at h hk
    have h1 : obufDestMid isr k x (i, (b, w)) = .ret () (i, (b.pushAll [x], w)) := by
      unfold obufDestMid
      show (if b.obufBottom = k then _ else _ : Eff (Nat × BState σ) Unit) _ = _
      rw [if_neg (by omega)]
      simp only [obufDest]; rw [pushOut_ok (by omega)]
    show (obufDestMid isr k x >>= fun _ => putAll (obufDestMid isr k) bs) (i, (b, w)) = _
    rw [Eff.bind_ret h1, putAll_mid_after (by
      rw [pushAll_out_length (by simp; omega), pushAll_bottom]; simp; omega) (by rw [pushAll_bottom]; simp; omega), pushAll_cons h]

theorem putAll_int_never {isr : Eff (BState σ) Unit} {k i : Nat} {w : σ} : ∀ {bs : List Byte} {b : Buf σ},
    b.obufBottom + bs.length ≤ b.out.length → b.obufBottom + bs.length ≤ k →
    putAll (obufDestInt isr k) bs (i, (b, w)) = .ret () (i, (b.pushAll bs, w))
  | [], b, _, _ => by rw [pushAll_nil]; rfl
  | x :: bs, b, h, hk => by
    simp only [List.length_cons] at h hk
    have h1 : obufDestInt isr k x (i, (b, w)) = .ret () (i, (b.pushAll [x], w)) := by
      have h0 : obufDest x (i, (b, w)) = .ret () (i, (b.pushAll [x], w)) := by
        simp only [obufDest]; rw [pushOut_ok (by omega)]
      unfold obufDestInt
      show (obufDest x >>= _) (i, (b, w)) = _
      rw [Eff.bind_ret h0]
      show (if b.obufBottom = k then _ else _ : Eff (Nat × BState σ) Unit) _ = _
      rw [if_neg (by omega)]
      rfl
    show (obufDestInt isr k x >>= fun _ => putAll (obufDestInt isr k) bs) (i, (b, w)) = _
    rw [Eff.bind_ret h1, putAll_int_never (by
      rw [pushAll_out_length (by simp; omega), pushAll_bottom]; simp; omega) (by rw [pushAll_bottom]; simp; omega), pushAll_cons h]

/-- The byte at position 0 of the output buffer, once a byte of the response has been output. -/
theorem pushAll_first {b : Buf σ} {x y : Byte} (h : b.obufBottom < b.out.length) (h3 : b.obufBottom = 0 → x = y)
    (h4 : b.obufBottom ≠ 0 → b.out[0]? = some y) : (b.pushAll [x]).out[0]? = some y := by
  rw [pushAll_out, splice_one h]
  by_cases hz : b.obufBottom = 0
  · rw [hz, h3 hz, List.getElem?_set_self (by omega)]
  · rw [List.getElem?_set_ne hz]; exact h4 hz

/-- All the bytes of a response, interrupted before the `k`-th one is written; `y` is the byte at position 0 of the output buffer at that time. -/
theorem putAll_mid {tx : Byte → Eff σ Unit} {k i : Nat} {w w' : σ} {y : Byte} (htx : tx y w = .ret () w') : ∀ {bs : List Byte} {b : Buf σ},
    b.obufBottom + bs.length ≤ b.out.length → b.obufBottom ≤ k → k < b.obufBottom + bs.length → b.obufNext = 0 →
    (b.obufBottom = 0 → k ≠ 0 → bs.head? = some y) → (b.obufBottom ≠ 0 ∨ k = 0 → b.out[0]? = some y) →
    putAll (obufDestMid (Buf.txIsr tx) k) bs (i, (b, w)) = .ret () (i, ({ b.pushAll bs with obufNext := 1 }, w'))
  | [], b, _, h1, h2, _, _, _ => by simp at h2; omega
  | x :: bs, b, h, h1, h2, hn, h3, h4 => by
    simp only [List.length_cons] at h h2
    have hlen := pushAll_out_length (b := b) (bs := [x]) (by simp; omega)
    have hbt : (b.pushAll [x]).obufBottom = b.obufBottom + 1 := by rw [pushAll_bottom]; rfl
    show (obufDestMid (Buf.txIsr tx) k x >>= fun _ => putAll (obufDestMid (Buf.txIsr tx) k) bs) (i, (b, w)) = _
    by_cases hk : b.obufBottom = k
    · subst hk
      have hi : Buf.txIsr tx ({ b with obufBottom := b.obufBottom + 1 }, w) =
          .ret () ({ b with obufBottom := b.obufBottom + 1, obufNext := 1 }, w') := by
        have := txIsr_sends (tx := tx) (b := { b with obufBottom := b.obufBottom + 1 }) (w := w) (w' := w') (y := y)
          (by unfold Buf.isLoaded; simp only [hn]; simp)
          (by simp only [hn]; exact h4 (by omega)) htx
        rw [this]
        simp only [hn]
      have h5 : obufDestMid (Buf.txIsr tx) b.obufBottom x (i, (b, w)) = .ret () (i, ({ b.pushAll [x] with obufNext := 1 }, w')) := by
        unfold obufDestMid
        show (if b.obufBottom = b.obufBottom then _ else _ : Eff (Nat × BState σ) Unit) _ = _
        rw [if_pos rfl]
        apply underPtr_ret
        show (Buf.txIsr tx >>= _) ({ b with obufBottom := b.obufBottom + 1 }, w) = _
        rw [Eff.bind_ret hi]
        show (Eff.lift (Buf.storeOut { b with obufBottom := b.obufBottom + 1, obufNext := 1 } b.obufBottom x) >>= _)
          (({ b with obufBottom := b.obufBottom + 1, obufNext := 1 } : Buf σ), w') = _
        rw [storeOut_last (by omega)]
        rfl
      rw [Eff.bind_ret h5, putAll_mid_after (by
          show (b.pushAll [x]).obufBottom + _ ≤ (b.pushAll [x]).out.length
          rw [hlen, hbt]; omega) (by show b.obufBottom < (b.pushAll [x]).obufBottom ∨ _; rw [hbt]; omega),
        pushAll_next, pushAll_cons h]
    · have h5 : obufDestMid (Buf.txIsr tx) k x (i, (b, w)) = .ret () (i, (b.pushAll [x], w)) := by
        unfold obufDestMid
        show (if b.obufBottom = k then _ else _ : Eff (Nat × BState σ) Unit) _ = _
        rw [if_neg hk]
        simp only [obufDest]; rw [pushOut_ok (by omega)]
      have hy : (b.pushAll [x]).out[0]? = some y :=
        pushAll_first (by omega) (fun hz => by simpa using h3 hz (by omega)) (fun hz => h4 (.inl hz))
      rw [Eff.bind_ret h5, putAll_mid htx (by rw [hlen, hbt]; omega) (by omega) (by omega) (by rw [pushAll_obufNext]; exact hn)
        (by intro h; omega) (fun _ => hy), pushAll_cons h]

/-- `call()` interrupted while the response is being output. -/
theorem callInt_of {p : Proto σ} (hP : P.Valid) {b : Buf σ} (hS : Serves P p b.disp) {cb : Callback σ}
    (hcb : p.cbs[wireValue p.e (slice b.ibuf 0 p.idxBytes)]? = some cb)
    (hroom : p.idxBytes + wireSizes cb.sig.params ≤ b.ibuf.length)
    (hdec : Decodes P p cb (slice b.ibuf p.idxBytes (wireSizes cb.sig.params))) {w w1 w2 : σ} {r : Option Val}
    (hfn : cb.fn (unwires p.e p.s cb.sig.params (slice b.ibuf p.idxBytes (wireSizes cb.sig.params))) w = .ret r w1)
    {isr : Eff (BState σ) Unit} {pt : CallPoint} (hpt : pt ≠ .betweenResets) {b2 : Buf σ}
    (hout : ∀ i, putAll (destAt isr pt) (response p.e p.s cb.sig.ret r) (i, ({ b with obufBottom := 0, obufNext := 0 }, w1)) = .ret () (i, (b2, w2))) :
    Buf.callInt P isr pt (b, w) = .ret () ({ b2 with indexLoaded := false, loadCount := p.idxBytes, ibufNext := 0 }, w2) := by
  have hg := hS.sig cb (mem_of_get hcb)
  obtain ⟨a, ha, hh, _⟩ := hS.act _ _ hcb
  obtain ⟨b0, hb0⟩ : ∃ b0 : Buf σ, b0 = { b with obufBottom := 0, obufNext := 0 } := ⟨_, rfl⟩
  have hi : b0.ibuf = b.ibuf := by rw [hb0]
  have hD : b0.disp = b.disp := by rw [hb0]
  rw [← hb0] at hout
  have hblock : (do
      let index ← b.disp.getIndex P ibufSrc
      let a ← Eff.lift (b.disp.at index)
      a.invoke P worldLens ibufSrc (destAt isr pt) : Eff (Nat × BState σ) Unit) (0, (b0, w)) =
      .ret () (p.idxBytes + wireSizes cb.sig.params, (b2, w2)) := by
    have hgi := getIndex_buf hP hS (b := b0) (w := w) (by rw [hi]; omega)
    rw [hi] at hgi
    rw [Eff.bind_ret hgi, at_eq ha, Eff.lift_ok, pure_bind, hh.invoke, call_eq hP hS.sup cb hg.1 hg.2.1]
    have hy := ibufSrc_yields (b := b0) (w := w) (n := wireSizes cb.sig.params) (i := p.idxBytes) (by rw [hi]; omega)
    have hgn := getN_yields hy
    rw [slice_length (by rw [hi]; omega), hi] at hgn
    have hr := hS.typed cb (mem_of_get hcb) _ _ _ _ hdec.2 hfn
    rw [Eff.bind_ret hgn, hdec.1, Eff.lift_ok, pure_bind, Eff.bind_ret (zoom_ret (L := worldLens) hfn), respond_eq hP hS.sup hg.2.2 hr]
    exact hout _
  unfold Buf.callInt
  simp only [if_neg hpt]
  show (withPtr (do
      let index ← b.disp.getIndex P ibufSrc
      let a ← Eff.lift (b.disp.at index)
      a.invoke P worldLens ibufSrc (destAt isr pt)) >>= fun _ => modifyBuf fun b' =>
        { b' with indexLoaded := false, loadCount := b.disp.idxBytes, ibufNext := 0 } : Eff (BState σ) Unit)
    ({ b with obufBottom := 0, obufNext := 0 }, w) = _
  rw [← hb0, Eff.bind_ret (withPtr_ret hblock)]
  show Res.ret () _ = _
  simp only [hS.idx]

/-- `put` interrupted while the response is being output, by a handler which leaves the output buffer as it is. -/
theorem putInt_of (h : Setting P K f defs) {b b1 : Buf σ} {w w1 w2 : σ} (hr : Reachable P K f defs false (b, w)) {x : Byte}
    (hput : Buf.put P x (b, w) = .ret .resolved (b1, w1)) {resp : List Byte} (hu : Unread b1 resp) {isr : Eff (BState σ) Unit} {pt : CallPoint}
    (hpt : pt ≠ .betweenResets) {m : Nat}
    (hout : ∀ (b0 : Buf σ) (i : Nat), b0.out = b.out → b0.obufBottom = 0 → b0.obufNext = 0 → resp.length ≤ b0.out.length →
      putAll (destAt isr pt) resp (i, (b0, w1)) = .ret () (i, ({ b0.pushAll resp with obufNext := m }, w2))) :
    Buf.putInt P isr pt x (b, w) = .ret .resolved ({ b1 with obufNext := m }, w2) := by
  obtain ⟨hb, _, hsh, m, hm⟩ := reachable_inv h hr
  rcases put_cases h.valid hm.inp hb x w with ⟨_, b1', h1, _⟩ | ⟨_, b1', h1, _⟩ | ⟨cb, args, hc, hcb, hl, h0⟩
  · rw [hput] at h1; cases h1
  · rw [hput] at h1; cases h1
  · obtain ⟨_, _, h2, h3, h4⟩ := putWith_request_full h.valid (Buf.callInt P isr pt) hm.inp hb hc w
    obtain ⟨_, _, h5, _, _⟩ := putWith_request_full h.valid (Buf.call P) hm.inp hb hc w
    have hs : Same b (b.loaded x) := ⟨rfl, rfl, (stored_same b x).ilen, rfl, rfl⟩
    have hbl := hb.same hs
    have hout' : (b.loaded x).out = b.out := by
      show (if b.shared = true then _ else _) = if b.shared = true then _ else _
      rw [hsh]
      rfl
    rcases h0 with ⟨hdec, _⟩ | ⟨f, _, _, h1⟩
    · have hcall := call_buf h.valid hbl.serves h3 (hbl.room cb hcb) (by rw [h4]; exact hdec) w
      have h5 : Buf.put P x (b, w) = _ := h5
      rw [hput] at h5
      cases hfn : cb.fn (unwires (protoOf K defs).e (protoOf K defs).s cb.sig.params
          (slice (b.loaded x).ibuf (protoOf K defs).idxBytes (wireSizes cb.sig.params))) w with
      | fault f => rw [hfn] at hcall; rw [Eff.bind_fault hcall] at h5; cases h5
      | threw w' => rw [hfn] at hcall; rw [Eff.bind_threw hcall] at h5; cases h5
      | ret r w' =>
        rw [hfn] at hcall
        simp only at hcall
        split at hcall
        · rename_i hfit
          rw [Eff.bind_ret hcall] at h5
          cases h5
          have hresp := unread_unique (finish_unread hfit) hu
          show Buf.putWith P _ x (b, w) = _
          rw [h2, Eff.bind_ret (callInt_of h.valid hbl.serves h3 (hbl.room cb hcb) (by rw [h4]; exact hdec) hfn hpt (fun i => by
            rw [hresp]
            exact hout _ i hout' rfl rfl (by rw [hresp] at hfit; exact hfit)))]
          rw [hresp]
          rfl
        · rw [Eff.bind_fault hcall] at h5; cases h5
    · rw [hput] at h1; cases h1

/-- The byte sent by the handler while a response is being output: `mem` is the output buffer before, `resp` the response. -/
def sentDuring (mem resp : List Byte) : CallPoint → Option Byte
  | .betweenResets => none
  | .beforeStore k => if k < resp.length then (if k = 0 then mem.head? else resp.head?) else none
  | .afterByte k => if k < resp.length then resp.head? else none

/-- C58, exactly, while the response is being output: the handler does not run (`none`), or it sends a byte, and the caller will not get the first byte of
the response. This byte is the first one of the response, except when `m_obuf_bottom` has just been incremented for the first time: it is then
whatever was in the output buffer. -/
theorem C58_output_exact (h : Setting P K f defs) {b b1 : Buf σ} {w w1 : σ} (hr : Reachable P K f defs false (b, w)) {x : Byte}
    (hput : Buf.put P x (b, w) = .ret .resolved (b1, w1)) {resp : List Byte} (hu : Unread b1 resp) {pt : CallPoint} (hpt : pt ≠ .betweenResets)
    (tx : Byte → Eff σ Unit) :
    (sentDuring b.out resp pt = none → Buf.putInt P (Buf.txIsr tx) pt x (b, w) = .ret .resolved (b1, w1)) ∧
    (∀ y w2, sentDuring b.out resp pt = some y → tx y w1 = .ret () w2 →
      Buf.putInt P (Buf.txIsr tx) pt x (b, w) = .ret .resolved ({ b1 with obufNext := 1 }, w2)) := by
  obtain ⟨_, hn, hbt, _, hle⟩ := put_resolved h hr hput hu
  have hz : ({ b1 with obufNext := 0 } : Buf σ) = b1 := by
    cases b1
    simp only at hn
    subst hn
    rfl
  have hidle : (∀ (b0 : Buf σ) (i : Nat), b0.out = b.out → b0.obufBottom = 0 → b0.obufNext = 0 → resp.length ≤ b0.out.length →
      putAll (destAt (Buf.txIsr tx) pt) resp (i, (b0, w1)) = .ret () (i, (b0.pushAll resp, w1))) →
      Buf.putInt P (Buf.txIsr tx) pt x (b, w) = .ret .resolved (b1, w1) := fun hall => by
    rw [← hz]
    refine putInt_of h hr hput hu hpt fun b0 i h1 h2 h3 h4 => ?_
    rw [hall b0 i h1 h2 h3 h4]
    have := pushAll_obufNext b0 resp
    rw [h3] at this
    have hz : ({ b0.pushAll resp with obufNext := 0 } : Buf σ) = b0.pushAll resp := by
      rw [← this]
    rw [hz]
  cases pt with
  | betweenResets => exact absurd rfl hpt
  | beforeStore k =>
    simp only [sentDuring]
    by_cases hk : k < resp.length
    · rw [if_pos hk]
      refine ⟨fun h0 => ?_, fun y w2 hy htx => putInt_of h hr hput hu hpt fun b0 i h1 h2 h3 h4 => ?_⟩
      · exfalso
        split at h0
        · rw [List.head?_eq_none_iff] at h0
          rw [h0, List.length_nil] at hle
          omega
        · rw [List.head?_eq_none_iff] at h0
          rw [h0, List.length_nil] at hk
          omega
      · refine putAll_mid htx (by omega) (by omega) (by omega) h3 (fun _ hk0 => ?_) (fun hk0 => ?_)
        · rw [if_neg hk0] at hy
          exact hy
        · rw [if_pos (by omega)] at hy
          rw [h1, ← List.head?_eq_getElem?]
          exact hy
    · rw [if_neg hk]
      exact ⟨fun _ => hidle fun b0 i h1 h2 h3 h4 => putAll_mid_after (by omega) (by omega), fun y w2 hy => by cases hy⟩
  | afterByte k =>
    simp only [sentDuring]
    by_cases hk : k < resp.length
    · rw [if_pos hk]
      refine ⟨fun h0 => ?_, fun y w2 hy htx => putInt_of h hr hput hu hpt fun b0 i h1 h2 h3 h4 => ?_⟩
      · exfalso
        rw [List.head?_eq_none_iff] at h0
        rw [h0, List.length_nil] at hk
        omega
      · exact putAll_int htx (by omega) (by omega) (by omega) h3 (fun _ => hy) (fun h0 => absurd h2 h0)
    · rw [if_neg hk]
      exact ⟨fun _ => hidle fun b0 i h1 h2 h3 h4 => putAll_int_never (by omega) (by omega), fun y w2 hy => by cases hy⟩

/-- C58, exactly, between the resets: if nothing has been read of the previous response, the handler sends nothing, even if there was or will be something
to send; if some bytes have been read, it sends the byte at the next position of the output buffer, which may be stale (`C58_stale_byte`) or out of
bounds. -/
theorem C58_resets_exact (h : Setting P K f defs) {b b1 : Buf σ} {w w1 : σ} (hr : Reachable P K f defs false (b, w)) {x : Byte}
    (hput : Buf.put P x (b, w) = .ret .resolved (b1, w1)) (tx : Byte → Eff σ Unit) :
    (b.obufNext = 0 → Buf.putInt P (Buf.txIsr tx) .betweenResets x (b, w) = .ret .resolved (b1, w1)) ∧
    (b.obufNext ≠ 0 → b.out[b.obufNext]? = none → Buf.putInt P (Buf.txIsr tx) .betweenResets x (b, w) = .fault .obufOverrun) ∧
    (∀ y w', b.obufNext ≠ 0 → b.out[b.obufNext]? = some y → tx y w = .ret () w' →
      Buf.putInt P (Buf.txIsr tx) .betweenResets x (b, w) = Buf.put P x (b, w')) := by
  refine ⟨fun hn => ?_, fun hn => (C58_stale_byte h hr hput hn tx).1, fun y w' hn => (C58_stale_byte h hr hput hn tx).2 y w'⟩
  obtain ⟨hb, _, hsh, m, hm⟩ := reachable_inv h hr
  rcases put_cases h.valid hm.inp hb x w with ⟨_, b1', h1, _⟩ | ⟨_, b1', h1, _⟩ | ⟨cb, args, hc, hcb, hl, h0⟩
  · rw [hput] at h1; cases h1
  · rw [hput] at h1; cases h1
  · obtain ⟨_, _, h2, _⟩ := putWith_request_full h.valid (Buf.callInt P (Buf.txIsr tx) .betweenResets) hm.inp hb hc w
    obtain ⟨_, _, h5, _⟩ := putWith_request_full h.valid (Buf.call P) hm.inp hb hc w
    have hld : ({ b.loaded x with obufBottom := 0 } : Buf σ).isLoaded = false := by
      show (b.obufNext != 0) = false
      simpa using hn
    have hi : Buf.txIsr tx ({ b.loaded x with obufBottom := 0 }, w) = .ret () ({ b.loaded x with obufBottom := 0 }, w) := by
      unfold Buf.txIsr
      show (if ({ b.loaded x with obufBottom := 0 } : Buf σ).isLoaded = true then _ else _ : Eff (BState σ) Unit) _ = _
      rw [hld]
      rfl
    have hcall : Buf.callInt P (Buf.txIsr tx) .betweenResets (b.loaded x, w) = Buf.call P (b.loaded x, w) := by
      unfold Buf.callInt
      show (Buf.txIsr tx >>= _) ({ b.loaded x with obufBottom := 0 }, w) = _
      rw [Eff.bind_ret hi]
      rfl
    have h5 : Buf.put P x (b, w) = _ := h5
    rw [← hput, h5]
    show Buf.putWith P _ x (b, w) = _
    rw [h2]
    show Eff.bind _ _ _ = Eff.bind _ _ _
    unfold Eff.bind
    rw [hcall]

/-- The byte which completes a request: `put` does not depend on what has been read of the previous response, in any state of the world. -/
theorem put_any_next (h : Setting P K f defs) {b b1 : Buf σ} {w w1 : σ} (hr : Reachable P K f defs false (b, w)) {x : Byte}
    (hput : Buf.put P x (b, w) = .ret .resolved (b1, w1)) (n : Nat) (w' : σ) :
    Buf.put P x ({ b with obufNext := n }, w') = Buf.put P x (b, w') := by
  obtain ⟨hb, _, hsh, m, hm⟩ := reachable_inv h hr
  rcases put_cases h.valid hm.inp hb x w with ⟨_, b1', h1, _⟩ | ⟨_, b1', h1, _⟩ | ⟨cb, args, hc, hcb, hl, h0⟩
  · rw [hput] at h1; cases h1
  · rw [hput] at h1; cases h1
  · obtain ⟨_, _, h5, _⟩ := putWith_request_full h.valid (Buf.call P) hm.inp hb hc w'
    obtain ⟨_, _, h6, _⟩ := putWith_request_full h.valid (Buf.call P) (relIn_next hm.inp n) (hb.same (same_next b n)) hc w'
    exact h6.trans h5.symm

/-- C58, partial, between the resets: if the previous response is being read, neither untouched nor drained, the handler sends its next byte and everything
happens as if it had run just before `put`. Missing: the previous response is untouched (then nothing is sent, `C58_resets_exact`) or drained. -/
theorem C58_reading_partial (h : Setting P K f defs) {b b1 : Buf σ} {w w1 w' : σ} (hr : Reachable P K f defs false (b, w)) {x : Byte}
    (hput : Buf.put P x (b, w) = .ret .resolved (b1, w1)) (hn : b.obufNext ≠ 0) {y : Byte} {out : List Byte} (hu : Unread b (y :: out))
    {tx : Byte → Eff σ Unit} (htx : tx y w = .ret () w') :
    Buf.putInt P (Buf.txIsr tx) .betweenResets x (b, w) = (do Buf.txIsr tx; Buf.put P x : Eff (BState σ) Status) (b, w) := by
  have hy := unread_head hu
  rw [(C58_resets_exact h hr hput tx).2.2 y w' hn hy htx,
    Eff.bind_ret (txIsr_sends (by rw [unread_isLoaded hu]; rfl) hy htx)]
  exact (put_any_next h hr hput _ _).symm

/-! ## Examples -/

/-- The state of an `echoRing` dispatcher which offers the response of `echo(5)`, when the index of `echo` has been put again. -/
def echoing : Buf Unit := { echoed with ibuf := [0#8, 5#8], ibufNext := 1, indexLoaded := true, loadCount := 1 }

theorem echoing_reachable : Reachable pc echoRing .any echoDefs false (echoing, ()) := by
  obtain ⟨n, w0, h⟩ := echoed_reachable
  have h1 : (Op.put 0#8).run pc (echoed, ()) = .ret () (echoing, ()) := rfl
  exact ⟨n, w0, .ret (.put 0#8) h trivial h1⟩

theorem echoing_unread : Unread echoing [5#8] := ⟨rfl, by decide, rfl⟩

/-- The response of `echo(7)` replaces that of `echo(5)`. -/
def echoed7 : Buf Unit := { echoed with ibuf := [0#8, 7#8], obuf := [7#8] }

theorem echoing_put : Buf.put pc 7#8 (echoing, ()) = .ret .resolved (echoed7, ()) := rfl

theorem echoed7_unread : Unread echoed7 [7#8] := ⟨rfl, by decide, rfl⟩

/-- Interrupted after the new value of `m_obuf_next` has been stored, `get()` gives the byte of the new response, which will be given again. -/
example : Buf.getInt (Buf.put pc 7#8) .afterStore (echoing, ()) = .ret (7#8, .resolved) ({ echoed7 with obufNext := 0 }, ()) := by
  obtain ⟨z, hz, h⟩ := C56_resolution_exact (echo_setting .any) echoing_reachable echoing_unread echoing_put echoed7_unread .afterStore
  cases hz
  exact h

example : ¬ (Buf.getInt (Buf.put pc 7#8) .afterRead (echoing, ()) =
      (do let y ← Buf.get; let s ← Buf.put pc 7#8; pure (y, s) : Eff (BState Unit) (Byte × Status)) (echoing, ()) ∨
    Buf.getInt (Buf.put pc 7#8) .afterRead (echoing, ()) =
      (do let s ← Buf.put pc 7#8; let y ← Buf.get; pure (y, s) : Eff (BState Unit) (Byte × Status)) (echoing, ())) := by
  rw [C56_serializable_iff (echo_setting .any) echoing_reachable echoing_unread echoing_put echoed7_unread]
  simp [Harmless]

/-- Interrupted between the increment of `m_obuf_bottom` and the assignment of the first byte, the handler sends 5, the byte of the previous response,
and nobody gets 7. -/
example (tx : Byte → Eff Unit Unit) (htx : tx 5#8 () = .ret () ()) :
    Buf.putInt pc (Buf.txIsr tx) (.beforeStore 0) 7#8 (echoing, ()) = .ret .resolved ({ echoed7 with obufNext := 1 }, ()) :=
  (C58_output_exact (echo_setting .any) echoing_reachable echoing_put echoed7_unread (by simp) tx).2 5#8 () rfl htx

/-- The previous response has not been read and there is a new one, but the handler sends nothing. -/
example (tx : Byte → Eff Unit Unit) : Buf.putInt pc (Buf.txIsr tx) .betweenResets 7#8 (echoing, ()) = .ret .resolved (echoed7, ()) :=
  (C58_resets_exact (echo_setting .any) echoing_reachable echoing_put tx).1 rfl

/-- `uint16_t get()`, `void set(uint16_t)`. -/
def pairRing : Keyring := ⟨.little, .twosComplement, [⟨1, [], some (.uint 2)⟩, ⟨2, [.uint 2], none⟩]⟩

/-- `get` returns 0x1234, `set` does nothing. -/
def pairDefs : Nat → List Val → Eff Unit (Option Val) := fun name _ w => .ret (if name = 1 then some (.int 0x1234) else none) w

theorem pair_setting (f : Features) : Setting pc pairRing f pairDefs where
  valid := pc_valid
  ring := ⟨by decide, by simp [pairRing, SigOk, Ty.WFs, Ty.WF, PackedAll, Packed]⟩
  sup := pc_supported _ _
  sizes := by simp [pairRing, Ty.sizeof, wireSize]
  typed := by
    intro d hd args w r w' _ h
    simp only [pairRing, List.mem_cons, List.not_mem_nil, or_false] at hd
    rcases hd with rfl | rfl <;> cases h <;> simp [RetOk, Val.Fits]

/-- The response of `get` has been read up to its first byte. -/
def halfRead : Buf Unit := { fresh pc pairRing .any pairDefs 65535 false with
  ibuf := [0#8, pc.junk 1, pc.junk 2], obuf := [0x34#8, 0x12#8], obufBottom := 2, obufNext := 1 }

theorem halfRead_reachable : Reachable pc pairRing .any pairDefs false (halfRead, ()) :=
  have h1 : (Op.put 0#8).run pc (fresh pc pairRing .any pairDefs 65535 false, ()) = .ret () ({ halfRead with obufNext := 0 }, ()) := rfl
  have h2 : (Op.get).run pc ({ halfRead with obufNext := 0 }, ()) = .ret () (halfRead, ()) := rfl
  ⟨65535, (), .ret .get (.ret (.put 0#8) .start trivial h1) trivial h2⟩

example (tx : Byte → Eff Unit Unit) (htx : tx 0x12#8 () = .ret () ()) :
    Buf.putInt pc (Buf.txIsr tx) .betweenResets 0#8 (halfRead, ()) = (do Buf.txIsr tx; Buf.put pc 0#8 : Eff (BState Unit) Status) (halfRead, ()) :=
  have h : Buf.put pc 0#8 (halfRead, ()) = .ret .resolved ({ halfRead with obufNext := 0 }, ()) := rfl
  C58_reading_partial (pair_setting .any) halfRead_reachable h (by decide) (y := 0x12#8) (out := []) ⟨rfl, by decide, rfl⟩ htx

end Upd
