import Verif.Model.Interrupt
import Verif.Props.BufferedMachine

/-!
# Buffered dispatchers and interrupts (C56, C58)
-/

namespace Upd
open Spec TypeList

variable {σ : Type}

/-! ## C56 -/

/-- Calls `get()` `n` times. -/
def gets : Nat → Eff (BState σ) Unit
  | 0 => pure ()
  | n + 1 => do
    let _ ← Buf.get
    gets n

/-- C56, reads out of bounds: whatever the byte put by the handler during a `get()`, neither this `get()` nor the next ones read out of the output
buffer (for keyrings without the defects of C43 and C07, and callbacks without undefined behaviour). -/
def C56_Statement : Prop :=
  ∀ (σ : Type) (P : Platform) (K : Keyring) (f : Features) (defs : Nat → List Val → Eff σ (Option Val)) (st : BState σ) (x : Byte)
    (pt : GetPoint) (n : Nat), Setting P K f defs → ResponsesFit K false → AllDecodeSafe P K →
    (∀ d ∈ K.decls, ∀ args w flt, defs d.name args w ≠ .fault flt) → Reachable P K f defs false st →
    (Buf.getInt (Buf.put P x) pt >>= fun _ => gets n) st ≠ .fault .obufOverrun

/-- `uint8_t echo(uint8_t)`, `void reset()`. -/
def echoRing : Keyring := ⟨.little, .twosComplement, [⟨1, [.uint 1], some (.uint 1)⟩, ⟨2, [], none⟩]⟩

/-- Definitions of the functions of `echoRing`. -/
def echoDefs : Nat → List Val → Eff Unit (Option Val) := fun name args w => .ret (if name = 1 then args.head? else none) w

theorem echo_setting (f : Features) : Setting pc echoRing f echoDefs where
  valid := pc_valid
  ring := ⟨by decide, by simp [echoRing, SigOk, Ty.WFs, Ty.WF, PackedAll, Packed]⟩
  sup := pc_supported _ _
  sizes := by simp [echoRing, Ty.sizeof, wireSize]
  typed := by
    intro d hd args w r w' hf h
    simp only [echoRing, List.mem_cons, List.not_mem_nil, or_false] at hd
    rcases hd with rfl | rfl
    · match args, hf with
      | [v], hf =>
        cases h
        simp only [Val.FitsAll, and_true] at hf
        simpa [RetOk] using hf
    · cases h; simp [RetOk]

theorem echo_fit : ResponsesFit echoRing false := by
  have h : neededOutput echoRing = 1 := rfl
  unfold ResponsesFit
  rw [h]
  simp [echoRing, retSize, wireSize]

theorem echo_decode : AllDecodeSafe pc echoRing := by simp [AllDecodeSafe, echoRing, DecodeSafeAll, DecodeSafe]

/-- The state of an `echoRing` dispatcher which offers the response of `echo(5)`. -/
def echoed : Buf Unit := { fresh pc echoRing .any echoDefs 65535 false with ibuf := [0#8, 5#8], obuf := [5#8], obufBottom := 1 }

theorem echoed_reachable : Reachable pc echoRing .any echoDefs false (echoed, ()) :=
  have h1 : (Op.put 0#8).run pc (fresh pc echoRing .any echoDefs 65535 false, ()) =
      .ret () ({ fresh pc echoRing .any echoDefs 65535 false with
        ibuf := [0#8, pc.junk 1], ibufNext := 1, indexLoaded := true, loadCount := 1 }, ()) := rfl
  have h2 : (Op.put 5#8).run pc ({ fresh pc echoRing .any echoDefs 65535 false with
        ibuf := [0#8, pc.junk 1], ibufNext := 1, indexLoaded := true, loadCount := 1 }, ()) = .ret () (echoed, ()) := rfl
  ⟨65535, (), .ret (.put 5#8) (.ret (.put 0#8) .start trivial h1) trivial h2⟩

/-- C56 does not hold: a response is being read; between the test and the fetch, the handler puts a byte which completes a request without
response; `m_obuf_next` becomes greater than `m_obuf_bottom`, `is_loaded()` remains true and the next `get()` reads out of the output buffer. -/
theorem C56_full_statement_is_false : ¬ C56_Statement := by
  intro h
  exact h Unit pc echoRing .any echoDefs (echoed, ()) 1#8 .afterTest 1 (echo_setting .any) echo_fit echo_decode
    (fun _ _ _ _ _ => by simp [echoDefs]) echoed_reachable rfl

section
variable {P : Platform} {K : Keyring} {f : Features} {defs : Nat → List Val → Eff σ (Option Val)}

/-- A `put` which does not complete a request does not look at `m_obuf_next`. -/
theorem put_next {p : Proto σ} (hP : P.Valid) {b b1 : Buf σ} {l : List Byte} (hb : BufOk P p b) (hm : RelIn p b l) {x : Byte} {w w1 : σ}
    {st : Status} (hst : st ≠ .resolved) (h : Buf.put P x (b, w) = .ret st (b1, w1)) (n : Nat) :
    Buf.put P x ({ b with obufNext := n }, w) = .ret st ({ b1 with obufNext := n }, w1) := by
  have hb' : BufOk P p { b with obufNext := n } := hb.same (same_next b n)
  rw [put_stored hm hb] at h
  rw [put_stored (relIn_next hm n) hb']
  have e1 : (({ b with obufNext := n } : Buf σ).stored x).loadCount = (b.stored x).loadCount := rfl
  have e2 : ({ b with obufNext := n } : Buf σ).disp = b.disp := rfl
  have e3 : ({ b with obufNext := n } : Buf σ).indexLoaded = b.indexLoaded := rfl
  rw [e1, e2, e3]
  have hcall : ∀ s : BState σ, (Buf.call P >>= fun _ => pure Status.resolved : Eff (BState σ) Status) s ≠ .ret st (b1, w1) := by
    intro s hs
    cases hc : Buf.call P s with
    | fault f => rw [Eff.bind_fault hc] at hs; cases hs
    | threw t => rw [Eff.bind_threw hc] at hs; cases hs
    | ret a t =>
      rw [Eff.bind_ret hc] at hs
      injection hs with hs
      exact hst hs.symm
  by_cases h1 : (b.stored x).loadCount > 0
  · rw [if_pos h1] at h ⊢
    cases h
    rfl
  · rw [if_neg h1] at h ⊢
    by_cases h2 : b.indexLoaded = true
    · rw [if_pos h2] at h
      exact absurd h (hcall _)
    · rw [if_neg h2] at h ⊢
      have hroom : p.idxBytes ≤ (b.stored x).ibuf.length := by rw [(stored_same b x).ilen]; exact hb.idxRoom
      have g1 := withPtr_ret (getIndex_buf hP hb.serves (b := b.stored x) (w := w) hroom)
      have g2 := withPtr_ret (getIndex_buf hP hb.serves (b := ({ b with obufNext := n } : Buf σ).stored x) (w := w) hroom)
      rw [Eff.bind_ret g1] at h
      rw [Eff.bind_ret g2]
      have e4 : (({ b with obufNext := n } : Buf σ).stored x).ibuf = (b.stored x).ibuf := rfl
      rw [e4]
      split at h
      · rename_i h3
        rw [if_pos h3]
        cases ha : b.disp.at (wireValue p.e (slice (b.stored x).ibuf 0 p.idxBytes)) with
        | error f => rw [ha] at h; cases h
        | ok a =>
          rw [ha, Eff.lift_ok, pure_bind] at h
          rw [Eff.lift_ok, pure_bind]
          cases hn : a.inputSize with
          | error f => rw [hn] at h; cases h
          | ok k =>
            rw [hn, Eff.lift_ok, pure_bind] at h
            rw [Eff.lift_ok, pure_bind]
            by_cases h4 : k = 0
            · rw [if_pos h4] at h
              exact absurd h (hcall _)
            · rw [if_neg h4] at h ⊢
              cases h
              rfl
      · rename_i h3
        rw [if_neg h3]
        cases h
        rfl

/-- C56, partial: if the byte put by the handler does not complete a request, the interrupted `get()` behaves as if the handler had run after it,
wherever it is interrupted: same byte, same status, same final state. Missing: handlers which complete a request, for which it does not hold. -/
theorem C56_no_resolution_partial (h : Setting P K f defs) {b b1 : Buf σ} {w w1 : σ} (hr : Reachable P K f defs false (b, w)) {x : Byte}
    {st : Status} (hst : st ≠ .resolved) (hput : Buf.put P x (b, w) = .ret st (b1, w1)) (pt : GetPoint) :
    Buf.getInt (Buf.put P x) pt (b, w) = (do let y ← Buf.get; let s ← Buf.put P x; pure (y, s) : Eff (BState σ) (Byte × Status)) (b, w) := by
  obtain ⟨hb, _, hsh, m, hm⟩ := reachable_inv h hr
  obtain ⟨hs1, ho1⟩ : Same b b1 ∧ OutSame b b1 := by
    have := put_outcome h.valid hm hb x w
    rw [hput] at this
    rcases this with ⟨h1, ⟨_, _, h2, _⟩ | ⟨_, _, h2, _⟩ | ⟨h2, _⟩⟩
    · exact ⟨h1, h2⟩
    · exact ⟨h1, h2⟩
    · exact absurd h2 hst
  obtain ⟨l, out⟩ := m
  unfold Buf.getInt
  show (if b.isLoaded = true then _ else _ : Eff (BState σ) (Byte × Status)) (b, w) = _
  cases out with
  | nil =>
    rw [unread_isLoaded hm.outp, Eff.bind_ret (get_empty hm.outp w)]
    rfl
  | cons y out =>
    obtain ⟨b2, h1, _, _, rfl⟩ := get_cons hm.outp w
    rw [unread_isLoaded hm.outp, Eff.bind_ret h1, Eff.bind_ret (put_next h.valid hb hm.inp hst hput (b.obufNext + 1))]
    have hout : b1.out = b.out := by
      unfold Buf.out
      rw [hs1.shared, hsh]
      exact ho1.obuf
    have hy : b.out[b.obufNext]? = some y := by
      have hbot := hm.outp.bottom
      have hle := hm.outp.le
      have hbs := hm.outp.bytes
      simp only [List.length_cons] at hbot hbs
      rw [slice_succ (by omega)] at hbs
      injection hbs with hbs
      rw [List.getElem?_eq_getElem (by omega), hbs]
    cases pt with
    | afterTest =>
      show (Buf.put P x >>= _) (b, w) = _
      rw [Eff.bind_ret hput]
      have : b1.popOut = .ok (y, { b1 with obufNext := b.obufNext + 1 }) := by
        unfold Buf.popOut
        rw [ho1.next, hout, hy]
      show (Eff.lift b1.popOut >>= _) (b1, w1) = _
      rw [this]
      rfl
    | afterLoad =>
      show (Buf.put P x >>= _) (b, w) = _
      rw [Eff.bind_ret hput]
      have : ({ b1 with obufNext := b.obufNext + 1 } : Buf σ).outAt b.obufNext = .ok y := by
        unfold Buf.outAt
        rw [show ({ b1 with obufNext := b.obufNext + 1 } : Buf σ).out = b1.out from rfl, hout, hy]
      show (Eff.lift (({ b1 with obufNext := b.obufNext + 1 } : Buf σ).outAt b.obufNext) >>= _) ({ b1 with obufNext := b.obufNext + 1 }, w1) = _
      rw [this]
      rfl
    | afterStore =>
      show (Buf.put P x >>= _) ({ b with obufNext := b.obufNext + 1 }, w) = _
      rw [Eff.bind_ret (put_next h.valid hb hm.inp hst hput (b.obufNext + 1))]
      have : ({ b1 with obufNext := b.obufNext + 1 } : Buf σ).outAt b.obufNext = .ok y := by
        unfold Buf.outAt
        rw [show ({ b1 with obufNext := b.obufNext + 1 } : Buf σ).out = b1.out from rfl, hout, hy]
      show (Eff.lift (({ b1 with obufNext := b.obufNext + 1 } : Buf σ).outAt b.obufNext) >>= _) ({ b1 with obufNext := b.obufNext + 1 }, w1) = _
      rw [this]
      rfl
    | afterRead =>
      have : b.outAt b.obufNext = .ok y := by
        unfold Buf.outAt
        rw [hy]
      show (Eff.lift (b.outAt b.obufNext) >>= _) (b, w) = _
      rw [this]
      show (Buf.put P x >>= _) (b, w) = _
      rw [Eff.bind_ret hput]
      rfl

/-- C56, another case: nothing to read. -/
theorem C56_empty_partial {α : Type} {b : Buf σ} (hu : Unread b []) (isr : Eff (BState σ) α) (pt : GetPoint) (w : σ) :
    Buf.getInt isr pt (b, w) = (do let y ← Buf.get; let s ← isr; pure (y, s) : Eff (BState σ) (Byte × α)) (b, w) := by
  unfold Buf.getInt
  show (if b.isLoaded = true then _ else _ : Eff (BState σ) (Byte × α)) (b, w) = _
  rw [unread_isLoaded hu, Eff.bind_ret (get_empty hu w)]
  rfl

/-- C56, another case: if the handler completes a request which has a response, and interrupts `get()` right after its test, then `get()` gives the
first byte of the new response: everything happens as if the handler had run first. -/
theorem C56_after_test_partial {b b1 : Buf σ} {w w1 : σ} {x y : Byte} {out resp : List Byte} (hu : Unread b (y :: out)) {st : Status}
    (hput : Buf.put P x (b, w) = .ret st (b1, w1)) (hne : resp ≠ []) (hu1 : Unread b1 resp) :
    Buf.getInt (Buf.put P x) .afterTest (b, w) =
      (do let s ← Buf.put P x; let y ← Buf.get; pure (y, s) : Eff (BState σ) (Byte × Status)) (b, w) := by
  unfold Buf.getInt
  show (if b.isLoaded = true then _ else _ : Eff (BState σ) (Byte × Status)) (b, w) = _
  rw [unread_isLoaded hu, Eff.bind_ret hput]
  show (Buf.put P x >>= _) (b, w) = _
  rw [Eff.bind_ret hput]
  have hl : b1.isLoaded = true := by
    rw [unread_isLoaded hu1]
    cases resp with
    | nil => exact absurd rfl hne
    | cons => rfl
  unfold Buf.get
  show (Eff.lift b1.popOut >>= _) (b1, w1) = ((fun st => if st.1.isLoaded then _ else _) >>= _ : Eff (BState σ) (Byte × Status)) (b1, w1)
  cases hp : b1.popOut with
  | error f => simp [Eff.lift, Bind.bind, Eff.bind, hl, hp]
  | ok t => simp [Eff.lift, Bind.bind, Eff.bind, hl, hp, modifyBuf, pure]

/-- C56, what happens otherwise, for any keyring: a response is being read, the handler completes a request without response right after the test.
`get()` gives the first byte of the old response, whether or not it has already been read; and then `is_loaded()` is true though there is no
response. -/
theorem C56_stale_byte {b b1 : Buf σ} {w w1 : σ} {x y y0 : Byte} {out : List Byte} (hu : Unread b (y :: out)) {st : Status}
    (hput : Buf.put P x (b, w) = .ret st (b1, w1)) (hu1 : Unread b1 []) (hn : b1.obufNext = 0) (h0 : b1.out[0]? = some y0) :
    Buf.getInt (Buf.put P x) .afterTest (b, w) = .ret (y0, st) ({ b1 with obufNext := 1 }, w1) ∧
      ({ b1 with obufNext := 1 } : Buf σ).isLoaded = true := by
  constructor
  · unfold Buf.getInt
    show (if b.isLoaded = true then _ else _ : Eff (BState σ) (Byte × Status)) (b, w) = _
    rw [unread_isLoaded hu]
    show (Buf.put P x >>= _) (b, w) = _
    rw [Eff.bind_ret hput]
    have : b1.popOut = .ok (y0, { b1 with obufNext := 1 }) := by
      unfold Buf.popOut
      rw [hn, h0]
    show (Eff.lift b1.popOut >>= _) (b1, w1) = _
    rw [this]
    rfl
  · have := hu1.bottom
    simp only [List.length_nil] at this
    unfold Buf.isLoaded
    simp only [bne_iff_ne]
    omega

end

/-- The handler puts the index of `reset`'s successor, which is invalid. -/
example (pt : GetPoint) : Buf.getInt (Buf.put pc 2#8) pt (echoed, ()) =
    (do let y ← Buf.get; let s ← Buf.put pc 2#8; pure (y, s) : Eff (BState Unit) (Byte × Status)) (echoed, ()) := by
  have h : Buf.put pc 2#8 (echoed, ()) = .ret .dropped ({ echoed with ibuf := [2#8, 5#8] }, ()) := rfl
  exact C56_no_resolution_partial (echo_setting .any) echoed_reachable (by simp) h pt

theorem echoed_unread : Unread echoed [5#8] := ⟨rfl, by decide, rfl⟩

example : Buf.getInt (Buf.put pc 1#8) .afterTest (echoed, ()) =
    .ret (5#8, .resolved) ({ echoed with ibuf := [1#8, 5#8], obufBottom := 0, obufNext := 1 }, ()) := by
  have h : Buf.put pc 1#8 (echoed, ()) = .ret .resolved ({ echoed with ibuf := [1#8, 5#8], obufBottom := 0, obufNext := 0 }, ()) := rfl
  exact (C56_stale_byte echoed_unread h ⟨rfl, by decide, rfl⟩ rfl rfl).1

/-- `uint8_t one()`, `uint8_t echo(uint8_t)`. -/
def oneRing : Keyring := ⟨.little, .twosComplement, [⟨1, [], some (.uint 1)⟩, ⟨2, [.uint 1], some (.uint 1)⟩]⟩

/-- Definitions of the functions of `oneRing`. -/
def oneDefs : Nat → List Val → Eff Unit (Option Val) := fun name args w => .ret (if name = 1 then some (.int 1) else args.head?) w

example : Buf.getInt (Buf.put pc 0#8) .afterTest
      ({ fresh pc oneRing .any oneDefs 255 false with ibuf := [1#8, 5#8], obuf := [5#8], obufBottom := 1 }, ()) =
    (do let s ← Buf.put pc 0#8; let y ← Buf.get; pure (y, s) : Eff (BState Unit) (Byte × Status))
      ({ fresh pc oneRing .any oneDefs 255 false with ibuf := [1#8, 5#8], obuf := [5#8], obufBottom := 1 }, ()) := by
  have h : Buf.put pc 0#8 ({ fresh pc oneRing .any oneDefs 255 false with ibuf := [1#8, 5#8], obuf := [5#8], obufBottom := 1 }, ()) =
    .ret .resolved ({ fresh pc oneRing .any oneDefs 255 false with ibuf := [0#8, 5#8], obuf := [1#8], obufBottom := 1 }, ()) := rfl
  exact C56_after_test_partial (y := 5#8) (out := []) (resp := [1#8]) ⟨rfl, by decide, rfl⟩ h (by simp) ⟨rfl, by decide, rfl⟩

/-! ## C58 -/

/-- C58 as stated: a handler which sends the next byte of the output, if any, while a `put` completes a request, has the same effect as if it had run
just before or just after `put`. -/
def C58_Statement : Prop :=
  ∀ (σ : Type) (P : Platform) (K : Keyring) (f : Features) (defs : Nat → List Val → Eff σ (Option Val)) (st : BState σ) (x : Byte)
    (pt : CallPoint) (tx : Byte → Eff σ Unit), Setting P K f defs → ResponsesFit K false → AllDecodeSafe P K →
    (∀ d ∈ K.decls, ∀ args w, ∃ r w', defs d.name args w = .ret r w') → (∀ y w, ∃ w', tx y w = .ret () w') →
    Reachable P K f defs false st →
    Buf.putInt P (Buf.txIsr tx) pt x st = (do Buf.txIsr tx; Buf.put P x : Eff (BState σ) Status) st ∨
    Buf.putInt P (Buf.txIsr tx) pt x st = (do let s ← Buf.put P x; Buf.txIsr tx; pure s : Eff (BState σ) Status) st

/-- The dispatcher of `echoed`, once its response has been read. -/
def drained : Buf Unit := { echoed with obufNext := 1 }

theorem drained_reachable : Reachable pc echoRing .any echoDefs false (drained, ()) := by
  obtain ⟨n, w0, h⟩ := echoed_reachable
  have h1 : (Op.get).run pc (echoed, ()) = .ret () (drained, ()) := rfl
  exact ⟨n, w0, .ret .get h trivial h1⟩

/-- C58 does not hold: `call()` sets `m_obuf_bottom` to 0 before `m_obuf_next` (include/upd/buffered_dispatcher.hpp:261-262). In between, if some bytes
have been read, `is_loaded()` is true even though the output has been drained; here the handler reads out of the output buffer. -/
theorem C58_full_statement_is_false : ¬ C58_Statement := by
  intro h
  have h1 : Buf.putInt pc (Buf.txIsr fun _ w => .ret () w) .betweenResets 1#8 (drained, ()) = .fault .obufOverrun := rfl
  rcases h Unit pc echoRing .any echoDefs (drained, ()) 1#8 .betweenResets (fun _ w => .ret () w) (echo_setting .any) echo_fit echo_decode
    (fun _ _ _ _ => ⟨_, _, rfl⟩) (fun _ w => ⟨w, rfl⟩) drained_reachable with h' | h' <;> rw [h1] at h' <;> cases h'

section
variable {P : Platform} {K : Keyring} {f : Features} {defs : Nat → List Val → Eff σ (Option Val)}

theorem underPtr_ret {τ α : Type} {x : Eff τ α} {t t' : τ} {i : Nat} {a : α} (h : x t = .ret a t') : underPtr x (i, t) = .ret a (i, t') := by
  unfold underPtr Eff.zoom; simp only [h]

/-- The handler, when there is something to send. -/
theorem txIsr_sends {tx : Byte → Eff σ Unit} {b : Buf σ} {w w' : σ} {y : Byte} (hl : b.isLoaded = true) (hy : b.out[b.obufNext]? = some y)
    (htx : tx y w = .ret () w') : Buf.txIsr tx (b, w) = .ret () ({ b with obufNext := b.obufNext + 1 }, w') := by
  have hg : Buf.get (b, w) = .ret y ({ b with obufNext := b.obufNext + 1 }, w) := by
    unfold Buf.get Buf.popOut
    simp only [hl, hy, if_true]
  unfold Buf.txIsr
  show (if b.isLoaded = true then _ else _ : Eff (BState σ) Unit) (b, w) = _
  rw [if_pos hl, Eff.bind_ret hg, onWorld_ret htx]

theorem pushAll_next (b : Buf σ) (bs : List Byte) (n : Nat) : ({ b with obufNext := n } : Buf σ).pushAll bs = { b.pushAll bs with obufNext := n } := by
  unfold Buf.pushAll
  cases b.shared <;> simp

theorem pushAll_obufNext (b : Buf σ) (bs : List Byte) : (b.pushAll bs).obufNext = b.obufNext := by
  unfold Buf.pushAll
  split <;> rfl

/-- Bytes output after the interruption. -/
theorem putAll_int_after {isr : Eff (BState σ) Unit} {k i : Nat} {w : σ} : ∀ {bs : List Byte} {b : Buf σ},
    b.obufBottom + bs.length ≤ b.out.length → k < b.obufBottom →
    putAll (obufDestInt isr k) bs (i, (b, w)) = .ret () (i, (b.pushAll bs, w))
  | [], b, _, _ => by rw [pushAll_nil]; rfl
  | x :: bs, b, h, hk => by
    simp only [List.length_cons] at h
    have h1 : obufDestInt isr k x (i, (b, w)) = .ret () (i, (b.pushAll [x], w)) := by
      have h0 : obufDest x (i, (b, w)) = .ret () (i, (b.pushAll [x], w)) := by
        simp only [obufDest]; rw [pushOut_ok (by omega)]
      unfold obufDestInt
      show (obufDest x >>= _) (i, (b, w)) = _
      rw [Eff.bind_ret h0]
      show (if b.obufBottom = k then _ else _ : Eff (Nat × BState σ) Unit) _ = _
      rw [if_neg (by omega)]
      rfl
    show (obufDestInt isr k x >>= fun _ => putAll (obufDestInt isr k) bs) (i, (b, w)) = _
    rw [Eff.bind_ret h1, putAll_int_after (by
      rw [pushAll_out_length (by simp; omega), pushAll_bottom]; simp; omega) (by rw [pushAll_bottom]; omega), pushAll_cons h]

/-- All the bytes of a response, from the moment where `m_obuf_next` is 0; `y` is the first byte of the response. -/
theorem putAll_int {tx : Byte → Eff σ Unit} {k i : Nat} {w w' : σ} {y : Byte} (htx : tx y w = .ret () w') : ∀ {bs : List Byte} {b : Buf σ},
    b.obufBottom + bs.length ≤ b.out.length → b.obufBottom ≤ k → k < b.obufBottom + bs.length → b.obufNext = 0 →
    (b.obufBottom = 0 → bs.head? = some y) → (b.obufBottom ≠ 0 → b.out[0]? = some y) →
    putAll (obufDestInt (Buf.txIsr tx) k) bs (i, (b, w)) = .ret () (i, ({ b.pushAll bs with obufNext := 1 }, w'))
  | [], b, _, h1, h2, _, _, _ => by simp at h2; omega
  | x :: bs, b, h, h1, h2, hn, h3, h4 => by
    simp only [List.length_cons] at h h2
    have h0 : obufDest x (i, (b, w)) = .ret () (i, (b.pushAll [x], w)) := by
      simp only [obufDest]; rw [pushOut_ok (by omega)]
    have hlen := pushAll_out_length (b := b) (bs := [x]) (by simp; omega)
    have hy : (b.pushAll [x]).out[0]? = some y := by
      rw [pushAll_out, splice_one (by omega)]
      by_cases hz : b.obufBottom = 0
      · have := h3 hz
        simp only [List.head?_cons] at this
        rw [hz, ← this]
        rw [List.getElem?_set_self (by omega)]
      · rw [List.getElem?_set_ne hz]; exact h4 hz
    show (obufDestInt (Buf.txIsr tx) k x >>= fun _ => putAll (obufDestInt (Buf.txIsr tx) k) bs) (i, (b, w)) = _
    by_cases hk : b.obufBottom = k
    · have hi : Buf.txIsr tx (b.pushAll [x], w) = .ret () ({ b.pushAll [x] with obufNext := 1 }, w') := by
        have := txIsr_sends (tx := tx) (b := b.pushAll [x]) (w := w) (w' := w') (y := y)
          (by unfold Buf.isLoaded; rw [pushAll_obufNext, pushAll_bottom, hn]; simp)
          (by rw [pushAll_obufNext, hn]; exact hy) htx
        rw [this, pushAll_obufNext, hn]
      have h5 : obufDestInt (Buf.txIsr tx) k x (i, (b, w)) = .ret () (i, ({ b.pushAll [x] with obufNext := 1 }, w')) := by
        unfold obufDestInt
        show (obufDest x >>= _) (i, (b, w)) = _
        rw [Eff.bind_ret h0]
        show (if b.obufBottom = k then _ else _ : Eff (Nat × BState σ) Unit) _ = _
        rw [if_pos hk, underPtr_ret hi]
      rw [Eff.bind_ret h5, putAll_int_after (by
          show (b.pushAll [x]).obufBottom + _ ≤ (b.pushAll [x]).out.length
          rw [hlen, pushAll_bottom]; simp; omega) (by show k < (b.pushAll [x]).obufBottom; rw [pushAll_bottom]; simp; omega),
        pushAll_next, pushAll_cons h]
    · have h5 : obufDestInt (Buf.txIsr tx) k x (i, (b, w)) = .ret () (i, (b.pushAll [x], w)) := by
        unfold obufDestInt
        show (obufDest x >>= _) (i, (b, w)) = _
        rw [Eff.bind_ret h0]
        show (if b.obufBottom = k then _ else _ : Eff (Nat × BState σ) Unit) _ = _
        rw [if_neg hk]
        rfl
      have hbt : (b.pushAll [x]).obufBottom = b.obufBottom + 1 := by rw [pushAll_bottom]; rfl
      rw [Eff.bind_ret h5, putAll_int htx (by rw [hlen, hbt]; omega) (by omega) (by omega) (by rw [pushAll_obufNext]; exact hn)
        (by intro h; omega) (fun _ => hy), pushAll_cons h]

/-- `call()` interrupted while the response is being output. -/
theorem callInt_after {p : Proto σ} (hP : P.Valid) {b : Buf σ} (hS : Serves P p b.disp) {cb : Callback σ}
    (hcb : p.cbs[wireValue p.e (slice b.ibuf 0 p.idxBytes)]? = some cb)
    (hroom : p.idxBytes + wireSizes cb.sig.params ≤ b.ibuf.length)
    (hdec : Decodes P p cb (slice b.ibuf p.idxBytes (wireSizes cb.sig.params))) {w w1 w2 : σ} {r : Option Val}
    (hfn : cb.fn (unwires p.e p.s cb.sig.params (slice b.ibuf p.idxBytes (wireSizes cb.sig.params))) w = .ret r w1) {y : Byte} {ys : List Byte}
    (hresp : response p.e p.s cb.sig.ret r = y :: ys) (hfit : (y :: ys).length ≤ b.out.length) {k : Nat} (hk : k < (y :: ys).length)
    {tx : Byte → Eff σ Unit} (htx : tx y w1 = .ret () w2) :
    Buf.callInt P (Buf.txIsr tx) (.afterByte k) (b, w) = .ret () ({ b.finish p.idxBytes (y :: ys) with obufNext := 1 }, w2) := by
  have hg := hS.sig cb (mem_of_get hcb)
  obtain ⟨a, ha, hh, _⟩ := hS.act _ _ hcb
  obtain ⟨b0, hb0⟩ : ∃ b0 : Buf σ, b0 = { b with obufBottom := 0, obufNext := 0 } := ⟨_, rfl⟩
  have hi : b0.ibuf = b.ibuf := by rw [hb0]
  have hD : b0.disp = b.disp := by rw [hb0]
  have ho : b0.out = b.out := by rw [hb0]; rfl
  have hbot : b0.obufBottom = 0 := by rw [hb0]
  have hnext : b0.obufNext = 0 := by rw [hb0]
  unfold Buf.callInt
  show (withPtr (do
      let index ← b.disp.getIndex P ibufSrc
      let a ← Eff.lift (b.disp.at index)
      a.invoke P worldLens ibufSrc (obufDestInt (Buf.txIsr tx) k)) >>= fun _ => modifyBuf fun b' =>
        { b' with indexLoaded := false, loadCount := b.disp.idxBytes, ibufNext := 0 } : Eff (BState σ) Unit)
    ({ b with obufBottom := 0, obufNext := 0 }, w) = _
  rw [← hb0]
  have hblock : (do
      let index ← b.disp.getIndex P ibufSrc
      let a ← Eff.lift (b.disp.at index)
      a.invoke P worldLens ibufSrc (obufDestInt (Buf.txIsr tx) k) : Eff (Nat × BState σ) Unit) (0, (b0, w)) =
      .ret () (p.idxBytes + wireSizes cb.sig.params, ({ b0.pushAll (y :: ys) with obufNext := 1 }, w2)) := by
    have hgi := getIndex_buf hP hS (b := b0) (w := w) (by rw [hi]; omega)
    rw [hi] at hgi
    rw [Eff.bind_ret hgi, at_eq ha, Eff.lift_ok, pure_bind, hh.invoke, call_eq hP hS.sup cb hg.1 hg.2.1]
    have hy := ibufSrc_yields (b := b0) (w := w) (n := wireSizes cb.sig.params) (i := p.idxBytes) (by rw [hi]; omega)
    have hgn := getN_yields hy
    rw [slice_length (by rw [hi]; omega), hi] at hgn
    have hr := hS.typed cb (mem_of_get hcb) _ _ _ _ hdec.2 hfn
    rw [Eff.bind_ret hgn, hdec.1, Eff.lift_ok, pure_bind, Eff.bind_ret (zoom_ret (L := worldLens) hfn), respond_eq hP hS.sup hg.2.2 hr, hresp]
    exact putAll_int htx (by rw [hbot, ho]; omega) (by rw [hbot]; omega) (by rw [hbot]; omega) hnext (fun _ => rfl) (fun h => absurd hbot h)
  rw [Eff.bind_ret (withPtr_ret hblock), hb0]
  show Res.ret () _ = _
  simp only [hS.idx]
  rfl

/-- C58, partial: the handler runs at any point where a byte of the response has just been output. It sends the first byte of the response, and
everything happens as if it had run just after `put`. Missing: the handler runs between the assignments to `m_obuf_bottom` and `m_obuf_next`
(`C58_stale_byte`). (Before them `put` does not touch the output, and after the last byte of the response it does not any more.) -/
theorem C58_while_output_partial (h : Setting P K f defs) {b b1 : Buf σ} {w w1 w2 : σ} (hr : Reachable P K f defs false (b, w)) {x : Byte}
    (hput : Buf.put P x (b, w) = .ret .resolved (b1, w1)) {y : Byte} {ys : List Byte} (hu : Unread b1 (y :: ys)) {k : Nat}
    (hk : k < (y :: ys).length) {tx : Byte → Eff σ Unit} (htx : tx y w1 = .ret () w2) :
    Buf.putInt P (Buf.txIsr tx) (.afterByte k) x (b, w) =
      (do let s ← Buf.put P x; Buf.txIsr tx; pure s : Eff (BState σ) Status) (b, w) := by
  obtain ⟨hb, _, hsh, m, hm⟩ := reachable_inv h hr
  rcases put_cases h.valid hm.inp hb x w with ⟨_, b1', h1, _⟩ | ⟨_, b1', h1, _⟩ | ⟨cb, args, hc, hcb, hl, h0⟩
  · rw [hput] at h1; cases h1
  · rw [hput] at h1; cases h1
  · obtain ⟨_, _, h2, h3, h4⟩ := putWith_request_full h.valid (Buf.callInt P (Buf.txIsr tx) (.afterByte k)) hm.inp hb hc w
    obtain ⟨_, _, h5, _, _⟩ := putWith_request_full h.valid (Buf.call P) hm.inp hb hc w
    have hs : Same b (b.loaded x) := ⟨rfl, rfl, (stored_same b x).ilen, rfl, rfl⟩
    have hbl := hb.same hs
    rcases h0 with ⟨hdec, _⟩ | ⟨f, _, _, h1⟩
    · have hcall := call_buf h.valid hbl.serves h3 (hbl.room cb hcb) (by rw [h4]; exact hdec) w
      have h5 : Buf.put P x (b, w) = _ := h5
      rw [hput] at h5
      cases hfn : cb.fn (unwires (protoOf K defs).e (protoOf K defs).s cb.sig.params
          (slice (b.loaded x).ibuf (protoOf K defs).idxBytes (wireSizes cb.sig.params))) w with
      | fault f => rw [hfn] at hcall; rw [Eff.bind_fault hcall] at h5; cases h5
      | threw w' => rw [hfn] at hcall; rw [Eff.bind_threw hcall] at h5; cases h5
      | ret r w' =>
        rw [hfn] at hcall
        simp only at hcall
        split at hcall
        · rename_i hfit
          rw [Eff.bind_ret hcall] at h5
          cases h5
          have hresp := unread_unique (finish_unread hfit) hu
          rw [hresp] at hcall hfit hu hput
          show Buf.putWith P _ x (b, w) = _
          rw [h2, Eff.bind_ret hput, Eff.bind_ret (callInt_after h.valid hbl.serves h3 (hbl.room cb hcb) (by rw [h4]; exact hdec) hfn hresp
            hfit hk htx)]
          have hn : ((b.loaded x).finish (protoOf K defs).idxBytes (y :: ys)).obufNext = 0 := by
            unfold Buf.finish
            exact pushAll_obufNext _ _
          have hy : ((b.loaded x).finish (protoOf K defs).idxBytes (y :: ys)).out[0]? = some y := by
            have hbs := hu.bytes
            have hle := hu.le
            have hbt := hu.bottom
            simp only [List.length_cons] at hbt hbs
            rw [hn] at hbs hbt
            rw [slice_succ (by omega)] at hbs
            injection hbs with hbs
            rw [List.getElem?_eq_getElem (by omega), hbs]
          have hi := txIsr_sends (tx := tx) (y := y) (w := w1) (w' := w2) (by rw [unread_isLoaded hu]; rfl) (by rw [hn]; exact hy) htx
          rw [Eff.bind_ret hi, hn]
        · rw [Eff.bind_fault hcall] at h5; cases h5
    · rw [hput] at h1; cases h1

/-- C58, what happens otherwise, for any keyring: if the bytes of the previous response have been read up to position `n` (`n` > 0), the handler sends
the byte at position `n` of the output buffer, even if the response has been drained; this is a read out of bounds if the response filled the
buffer. -/
theorem C58_stale_byte (h : Setting P K f defs) {b b1 : Buf σ} {w w1 : σ} (hr : Reachable P K f defs false (b, w)) {x : Byte}
    (hput : Buf.put P x (b, w) = .ret .resolved (b1, w1)) (hn : b.obufNext ≠ 0) (tx : Byte → Eff σ Unit) :
    (b.out[b.obufNext]? = none → Buf.putInt P (Buf.txIsr tx) .betweenResets x (b, w) = .fault .obufOverrun) ∧
    (∀ y w', b.out[b.obufNext]? = some y → tx y w = .ret () w' →
      Buf.putInt P (Buf.txIsr tx) .betweenResets x (b, w) = Buf.put P x (b, w')) := by
  obtain ⟨hb, _, hsh, m, hm⟩ := reachable_inv h hr
  rcases put_cases h.valid hm.inp hb x w with ⟨_, b1', h1, _⟩ | ⟨_, b1', h1, _⟩ | ⟨cb, args, hc, hcb, hl, h0⟩
  · rw [hput] at h1; cases h1
  · rw [hput] at h1; cases h1
  · obtain ⟨_, _, h2, _⟩ := putWith_request_full h.valid (Buf.callInt P (Buf.txIsr tx) .betweenResets) hm.inp hb hc w
    have hout : ({ b.loaded x with obufBottom := 0 } : Buf σ).out = b.out := by
      show (if b.shared = true then _ else _) = if b.shared = true then _ else _
      rw [hsh]
      rfl
    have hld : ({ b.loaded x with obufBottom := 0 } : Buf σ).isLoaded = true := by
      show (b.obufNext != 0) = true
      simpa using hn
    refine ⟨fun hy => ?_, fun y w' hy htx => ?_⟩
    · have hg : Buf.get ({ b.loaded x with obufBottom := 0 }, w) = .fault .obufOverrun := by
        unfold Buf.get Buf.popOut
        simp only [hld, if_true]
        rw [hout, show ({ b.loaded x with obufBottom := 0 } : Buf σ).obufNext = b.obufNext from rfl, hy]
      have hi : Buf.txIsr tx ({ b.loaded x with obufBottom := 0 }, w) = .fault .obufOverrun := by
        unfold Buf.txIsr
        show (if ({ b.loaded x with obufBottom := 0 } : Buf σ).isLoaded = true then _ else _ : Eff (BState σ) Unit) _ = _
        rw [if_pos hld, Eff.bind_fault hg]
      have hcall : Buf.callInt P (Buf.txIsr tx) .betweenResets (b.loaded x, w) = .fault .obufOverrun := by
        unfold Buf.callInt
        show (Buf.txIsr tx >>= _) ({ b.loaded x with obufBottom := 0 }, w) = _
        rw [Eff.bind_fault hi]
      show Buf.putWith P _ x (b, w) = _
      rw [h2, Eff.bind_fault hcall]
    · obtain ⟨_, _, h5, _⟩ := putWith_request_full h.valid (Buf.call P) hm.inp hb hc w'
      have hi := txIsr_sends (tx := tx) (b := { b.loaded x with obufBottom := 0 }) (w := w) (w' := w') (y := y) hld
        (by rw [hout]; exact hy) htx
      have hcall : Buf.callInt P (Buf.txIsr tx) .betweenResets (b.loaded x, w) = Buf.call P (b.loaded x, w') := by
        unfold Buf.callInt
        show (Buf.txIsr tx >>= _) ({ b.loaded x with obufBottom := 0 }, w) = _
        rw [Eff.bind_ret hi]
        rfl
      show Buf.putWith P _ x (b, w) = Buf.putWith P _ x (b, w')
      rw [h2, h5]
      show Eff.bind _ _ _ = Eff.bind _ _ _
      unfold Eff.bind
      rw [hcall]

end

example : Buf.putInt pc (Buf.txIsr fun _ w => .ret () w) .betweenResets 1#8 (drained, ()) = .fault .obufOverrun := by
  have h : Buf.put pc 1#8 (drained, ()) = .ret .resolved ({ echoed with ibuf := [1#8, 5#8], obufBottom := 0 }, ()) := rfl
  exact (C58_stale_byte (echo_setting .any) drained_reachable h (by decide) _).1 rfl

/-- The handler runs while the response of `echo(5)` is being output. -/
example : Buf.putInt pc (Buf.txIsr fun _ w => .ret () w) (.afterByte 0) 5#8
      ({ fresh pc echoRing .any echoDefs 65535 false with ibuf := [0#8, pc.junk 1], ibufNext := 1, indexLoaded := true, loadCount := 1 }, ()) =
    .ret .resolved (drained, ()) := by
  have h1 : (Op.put 0#8).run pc (fresh pc echoRing .any echoDefs 65535 false, ()) =
      .ret () ({ fresh pc echoRing .any echoDefs 65535 false with
        ibuf := [0#8, pc.junk 1], ibufNext := 1, indexLoaded := true, loadCount := 1 }, ()) := rfl
  have h2 : Buf.put pc 5#8 ({ fresh pc echoRing .any echoDefs 65535 false with
        ibuf := [0#8, pc.junk 1], ibufNext := 1, indexLoaded := true, loadCount := 1 }, ()) = .ret .resolved (echoed, ()) := rfl
  refine (C58_while_output_partial (echo_setting .any) ⟨65535, (), .ret (.put 0#8) .start trivial h1⟩ h2 echoed_unread (by decide) rfl).trans ?_
  rw [Eff.bind_ret h2]
  rfl

/-- Nothing has been received yet. -/
example (pt : GetPoint) : Buf.getInt (Buf.put pc 0#8) pt (drained, ()) =
    (do let y ← Buf.get; let s ← Buf.put pc 0#8; pure (y, s) : Eff (BState Unit) (Byte × Status)) (drained, ()) :=
  C56_empty_partial ⟨rfl, by decide, rfl⟩ (Buf.put pc 0#8) pt ()

end Upd
