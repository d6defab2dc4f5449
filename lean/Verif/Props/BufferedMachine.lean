import Verif.Props.BufferSafety

/-!
# Buffered dispatchers as an abstract machine (C46, C47)

`Machine` (`Verif.Spec.Machine`) has a queue for the input and a queue for the output. `runAll step ops`: successive calls of `put`, `get` and
`is_loaded`, in any order, and what they return.
-/

namespace Upd
open Spec TypeList

variable {σ : Type}

/-- The faults by which a buffered dispatcher may depart from the machine: response too large, arguments which cannot be decoded. -/
def Departs (P : Platform) (p : Proto σ) (b : Buf σ) (f : Fault) : Prop :=
  (f = .obufOverrun ∧ ∃ cb ∈ p.cbs, b.out.length < retSize cb.sig.ret) ∨
    (DecodeFault f ∧ ∃ cb ∈ p.cbs, ¬ DecodeSafeAll P p.e p.s cb.sig.params)

/-- Same results, and the final states are related. -/
def Follows (p : Proto σ) (b0 : Buf σ) {γ : Type} : Res (BState σ) γ → Res (Machine × σ) γ → Prop
  | .ret a (b, w), .ret a' (m, w') => a = a' ∧ w = w' ∧ Rel p b m ∧ Same b0 b
  | .threw (_, w), .threw (_, w') => w = w'
  | .fault f, .fault f' => f = f'
  | _, _ => False

theorem put_follows {P : Platform} (hP : P.Valid) {p : Proto σ} {b : Buf σ} {m : Machine} (h : Rel p b m) (hb : BufOk P p b)
    (hd : b.shared = true → m.out = []) (x : Byte) (w : σ) :
    Follows p b (Buf.put P x (b, w)) (Machine.put p x (m, w)) ∨ ∃ f, Buf.put P x (b, w) = .fault f ∧ Departs P p b f := by
  unfold Machine.put
  simp only
  rcases put_cases hP h.inp hb x w with ⟨h0, b1, h1, h2, h3, h4⟩ | ⟨h0, b1, h1, h2, h3, h4⟩ | ⟨cb, args, hc, hm, hl, h0⟩
  · rw [h1, h0]; exact Or.inl ⟨rfl, rfl, ⟨h2, unread_keep h.outp h3 h4 hd⟩, h3⟩
  · rw [h1, h0]; exact Or.inl ⟨rfl, rfl, ⟨h2, unread_keep h.outp h3 h4 hd⟩, h3⟩
  · rw [hc]
    simp only
    rcases h0 with ⟨_, ⟨r, w1, hfn, _, ⟨b1, h1, h2, h4, h3⟩ | ⟨h2, h1⟩⟩ | ⟨w1, b1, hfn, h1⟩ | ⟨f, hfn, h1⟩⟩ | ⟨f, h2, h3, h1⟩
    · rw [h1, hfn]; exact Or.inl ⟨rfl, rfl, ⟨h2, h4⟩, h3⟩
    · exact Or.inr ⟨_, h1, Or.inl ⟨rfl, cb, hm, h2⟩⟩
    · rw [h1, hfn]; exact Or.inl rfl
    · rw [h1, hfn]; exact Or.inl rfl
    · refine Or.inr ⟨f, h1, Or.inr ⟨h2, cb, hm, fun hd => ?_⟩⟩
      have hg := hb.serves.sig cb hm
      have := (readAll_decodeSafe hP hb.serves.sup hg.1 hg.2.1 hd hl).1
      rw [h3] at this
      cases this

theorem Departs.same {P : Platform} {p : Proto σ} {b b' : Buf σ} {f : Fault} (h : Departs P p b' f) (hs : Same b b') :
    Departs P p b f := by
  rcases h with ⟨h1, cb, h2, h3⟩ | h
  · exact Or.inl ⟨h1, cb, h2, by rw [← hs.outLen]; exact h3⟩
  · exact Or.inr h

theorem io_follows {P : Platform} (hP : P.Valid) {p : Proto σ} {b : Buf σ} {m : Machine} (h : Rel p b m) (hb : BufOk P p b)
    (op : Io) (hd : b.shared = true → (∃ x, op = .put x) → m.out = []) (w : σ) :
    Follows p b (op.run P (b, w)) (op.runM p (m, w)) ∨ ∃ f, op.run P (b, w) = .fault f ∧ Departs P p b f := by
  cases op with
  | put x =>
    rcases put_follows hP h hb (fun h => hd h ⟨x, rfl⟩) x w with h1 | ⟨f, h1, h2⟩
    · left
      show Follows p b ((Buf.put P x >>= fun st => pure (Obs.status st) : Eff (BState σ) Obs) (b, w))
        ((Machine.put p x >>= fun st => pure (Obs.status st) : Eff (Machine × σ) Obs) (m, w))
      revert h1
      cases he : Buf.put P x (b, w) with
      | ret st t =>
        obtain ⟨b1, w1⟩ := t
        rw [Eff.bind_ret he]
        cases hm : Machine.put p x (m, w) with
        | ret st' t' =>
          obtain ⟨m1, w1'⟩ := t'
          rw [Eff.bind_ret hm]
          rintro ⟨rfl, h1⟩
          exact ⟨rfl, h1⟩
        | threw t' => exact fun h => h.elim
        | fault f => exact fun h => h.elim
      | threw t =>
        obtain ⟨b1, w1⟩ := t
        rw [Eff.bind_threw he]
        cases hm : Machine.put p x (m, w) with
        | ret st' t' => exact fun h => h.elim
        | threw t' => obtain ⟨m1, w1'⟩ := t'; rw [Eff.bind_threw hm]; exact fun h => h
        | fault f => exact fun h => h.elim
      | fault f =>
        rw [Eff.bind_fault he]
        cases hm : Machine.put p x (m, w) with
        | ret st' t' => exact fun h => h.elim
        | threw t' => exact fun h => h.elim
        | fault f => rw [Eff.bind_fault hm]; exact fun h => h
    · exact Or.inr ⟨f, Eff.bind_fault h1, h2⟩
  | get =>
    left
    show Follows p b ((Buf.get >>= fun x => pure (Obs.byte x) : Eff (BState σ) Obs) (b, w))
      ((Machine.get >>= fun x => pure (Obs.byte x) : Eff (Machine × σ) Obs) (m, w))
    obtain ⟨l, out⟩ := m
    cases out with
    | nil =>
      rw [Eff.bind_ret (get_empty h.outp w), Eff.bind_ret (show Machine.get (⟨l, []⟩, w) = .ret 0#8 (⟨l, []⟩, w) from rfl)]
      exact ⟨rfl, rfl, h, Same.refl b⟩
    | cons x out =>
      obtain ⟨b', h1, h2, h3, h4⟩ := get_cons h.outp w
      rw [Eff.bind_ret h1, Eff.bind_ret (show Machine.get (⟨l, x :: out⟩, w) = .ret x (⟨l, out⟩, w) from rfl)]
      exact ⟨rfl, rfl, ⟨by rw [h4]; exact relIn_next h.inp _, h2⟩, h3⟩
  | isLoaded =>
    left
    exact ⟨by rw [unread_isLoaded h.outp]; rfl, rfl, h, Same.refl b⟩

/-- Any calls. A single buffered dispatcher has to be drained before bytes are put. -/
theorem runAll_follows {P : Platform} (hP : P.Valid) {p : Proto σ} : ∀ {ops : List Io} {b : Buf σ} {m : Machine} {w : σ},
    Rel p b m → BufOk P p b → (b.shared = true → Drained P ops (b, w)) →
    Follows p b (runAll (Io.run P) ops (b, w)) (runAll (Io.runM p) ops (m, w)) ∨
      ∃ f, runAll (Io.run P) ops (b, w) = .fault f ∧ Departs P p b f
  | [], b, m, w, h, _, _ => Or.inl ⟨rfl, rfl, h, Same.refl b⟩
  | op :: ops, b, m, w, h, hb, hd => by
    have hd1 : b.shared = true → (∃ x, op = .put x) → m.out = [] := by
      intro h1 h2
      have := (hd h1).1 h2
      rw [unread_isLoaded h.outp] at this
      simpa using this
    rcases io_follows hP h hb op hd1 w with h1 | ⟨f, h1, h2⟩
    · show Follows p b ((op.run P >>= fun o => runAll (Io.run P) ops >>= fun os => pure (o :: os) : Eff (BState σ) (List Obs)) (b, w))
          ((op.runM p >>= fun o => runAll (Io.runM p) ops >>= fun os => pure (o :: os) : Eff (Machine × σ) (List Obs)) (m, w)) ∨
        ∃ f, (op.run P >>= fun o => runAll (Io.run P) ops >>= fun os => pure (o :: os) : Eff (BState σ) (List Obs)) (b, w) = .fault f ∧
          Departs P p b f
      revert h1
      cases he : op.run P (b, w) with
      | fault f =>
        cases hm : op.runM p (m, w) with
        | ret st' t' => exact fun h => h.elim
        | threw t' => exact fun h => h.elim
        | fault f => rw [Eff.bind_fault hm, Eff.bind_fault he]; exact fun h => Or.inl h
      | threw t =>
        obtain ⟨b1, w1⟩ := t
        cases hm : op.runM p (m, w) with
        | ret st' t' => exact fun h => h.elim
        | threw t' => obtain ⟨m1, w1'⟩ := t'; rw [Eff.bind_threw hm, Eff.bind_threw he]; exact fun h => Or.inl h
        | fault f => exact fun h => h.elim
      | ret o t =>
        obtain ⟨b1, w1⟩ := t
        cases hm : op.runM p (m, w) with
        | threw t' => exact fun h => h.elim
        | fault f => exact fun h => h.elim
        | ret o' t' =>
          obtain ⟨m1, w1'⟩ := t'
          rintro ⟨rfl, rfl, h1, h2⟩
          rw [Eff.bind_ret he, Eff.bind_ret hm]
          rcases runAll_follows hP (ops := ops) (w := w1) h1 (hb.same h2)
            (fun h3 => (hd (by rw [← h2.shared]; exact h3)).2 _ _ he) with h3 | ⟨f, h3, h4⟩
          · left
            revert h3
            cases hr : runAll (Io.run P) ops (b1, w1) with
            | fault f =>
              cases hrm : runAll (Io.runM p) ops (m1, w1) with
              | ret st' t' => exact fun h => h.elim
              | threw t' => exact fun h => h.elim
              | fault f => rw [Eff.bind_fault hr, Eff.bind_fault hrm]; exact fun h => h
            | threw t =>
              obtain ⟨b2, w2⟩ := t
              cases hrm : runAll (Io.runM p) ops (m1, w1) with
              | ret st' t' => exact fun h => h.elim
              | threw t' => obtain ⟨m2, w2'⟩ := t'; rw [Eff.bind_threw hr, Eff.bind_threw hrm]; exact fun h => h
              | fault f => exact fun h => h.elim
            | ret os t =>
              obtain ⟨b2, w2⟩ := t
              cases hrm : runAll (Io.runM p) ops (m1, w1) with
              | threw t' => exact fun h => h.elim
              | fault f => exact fun h => h.elim
              | ret os' t' =>
                obtain ⟨m2, w2'⟩ := t'
                rw [Eff.bind_ret hr, Eff.bind_ret hrm]
                rintro ⟨rfl, rfl, h3, h4⟩
                exact ⟨rfl, rfl, h3, h2.trans h4⟩
          · exact Or.inr ⟨f, Eff.bind_fault h3, h4.same h2⟩
    · exact Or.inr ⟨f, Eff.bind_fault h1, h2⟩

theorem Follows.sameOutcome {p : Proto σ} {b0 : Buf σ} {γ : Type} {r : Res (BState σ) γ} {r' : Res (Machine × σ) γ}
    (h : Follows p b0 r r') : SameOutcome r r' := by
  cases r with
  | ret a t => cases r' with
    | ret a' t' => exact ⟨h.1, h.2.1⟩
    | threw => exact h
    | fault => exact h
  | threw t => cases r' with
    | ret => exact h
    | threw => exact h
    | fault => exact h
  | fault f => cases r' with
    | ret => exact h
    | threw => exact h
    | fault => exact h

theorem departs_not {P : Platform} {K : Keyring} {defs : Nat → List Val → Eff σ (Option Val)} {b : Buf σ} {shared : Bool}
    (hlen : b.out.length = outRoom K shared) {f : Fault} (h : Departs P (protoOf K defs) b f) :
    (f = .obufOverrun ∧ ¬ ResponsesFit K shared) ∨ ((f = .signedOverflow ∨ f = .badBool) ∧ ¬ AllDecodeSafe P K) := by
  rcases h with ⟨h1, cb, h2, h3⟩ | ⟨h1, cb, h2, h3⟩
  · obtain ⟨d, hd, rfl⟩ := protoOf_mem h2
    refine Or.inl ⟨h1, fun hall => ?_⟩
    have := hall d hd
    rw [hlen] at h3
    exact Nat.not_le_of_lt h3 this
  · obtain ⟨d, hd, rfl⟩ := protoOf_mem h2
    exact Or.inr ⟨h1, fun hall => h3 (hall d hd)⟩

/-! ## C46 -/

theorem not_sameOutcome {α β γ : Type} {a : Res (α × σ) γ} {b : Res (β × σ) γ} {f : Fault} {x : γ} {st : β × σ} (ha : a = .fault f)
    (hb : b = .ret x st) : ¬ SameOutcome a b ∧ ¬ SameOutcome b a := by
  subst ha hb
  exact ⟨fun h => h, fun h => h⟩

theorem widen_double_overrun :
    runAll (Io.run pc) [.put 0#8, .put 7#8] (fresh pc widenRing .any widenDefs 65535 false, ()) = .fault .obufOverrun := by
  have h1 : Io.run pc (.put 0#8) (fresh pc widenRing .any widenDefs 65535 false, ()) = .ret (.status .loading) (widenLoading, ()) := rfl
  have h2 : Io.run pc (.put 7#8) (widenLoading, ()) = .fault .obufOverrun := rfl
  rw [runAll, Eff.bind_ret h1, runAll]
  exact Eff.bind_fault (Eff.bind_fault h2)

theorem widen_machine : runAll (Io.runM (protoOf widenRing widenDefs)) [.put 0#8, .put 7#8] (Machine.init, ()) =
    .ret [.status .loading, .status .resolved] (⟨[], [0x34#8, 0x12#8]⟩, ()) := rfl

/-- C46 as stated. -/
def C46_Statement : Prop :=
  ∀ (σ : Type) (P : Platform) (K : Keyring) (f : Features) (defs : Nat → List Val → Eff σ (Option Val)) (sizeMax : Nat) (w : σ)
    (ops : List Io), Setting P K f defs →
    SameOutcome (runAll (Io.run P) ops (fresh P K f defs sizeMax false, w))
      (runAll (Io.runM (protoOf K defs)) ops (Machine.init, w))

seal SameOutcome runAll in
/-- C46 does not hold for all keyrings, for the same reason as C43: responses larger than the output buffer. -/
theorem C46_full_statement_is_false : ¬ C46_Statement := by
  intro h
  exact (not_sameOutcome widen_double_overrun widen_machine).1 (h Unit pc widenRing .any widenDefs 65535 () [.put 0#8, .put 7#8] (widen_setting .any))

section
variable {P : Platform} {K : Keyring} {f : Features} {defs : Nat → List Val → Eff σ (Option Val)}

/-- C46 without conditions on the sizes of the responses and the types of the parameters: any calls of `put`, `get` and `is_loaded` on a double
buffered dispatcher, in any reachable state, give the same results, calls of callbacks and exceptions as on the machine, unless an undefined
behaviour occurs because of C43 or C07. -/
theorem C46_departures (h : Setting P K f defs) {b : Buf σ} {w : σ} (hr : Reachable P K f defs false (b, w)) {l out : List Byte}
    (hp : Pending b l) (hu : Unread b out) (ops : List Io) :
    SameOutcome (runAll (Io.run P) ops (b, w)) (runAll (Io.runM (protoOf K defs)) ops (⟨l, out⟩, w)) ∨
    (runAll (Io.run P) ops (b, w) = .fault .obufOverrun ∧ ¬ ResponsesFit K false) ∨
    ((runAll (Io.run P) ops (b, w) = .fault .signedOverflow ∨ runAll (Io.run P) ops (b, w) = .fault .badBool) ∧ ¬ AllDecodeSafe P K) := by
  obtain ⟨hb, hlen, hsh, out', hm⟩ := reachable_pending h hr hp
  have := unread_unique hm.outp hu
  simp only at this
  subst this
  rcases runAll_follows h.valid (ops := ops) (w := w) hm hb (fun hs => by rw [hsh] at hs; cases hs) with h1 | ⟨flt, h1, h2⟩
  · exact Or.inl h1.sameOutcome
  · rcases departs_not hlen h2 with ⟨rfl, h3⟩ | ⟨h3, h4⟩
    · exact Or.inr (Or.inl ⟨h1, h3⟩)
    · rw [h1]
      exact Or.inr (Or.inr ⟨by rcases h3 with rfl | rfl <;> simp, h4⟩)

/-- C46, partial: keyrings of which the responses fit in the output buffer and the parameters can be decoded from any bytes. For such a
keyring, any interleaving of `put`, `get` and `is_loaded` gives the same results and calls as on the machine. Missing: the other keyrings, for
which it does not hold (see C43 and C07). -/
theorem C46_machine_partial (h : Setting P K f defs) (ho : ResponsesFit K false) (hs : AllDecodeSafe P K) {b : Buf σ} {w : σ}
    (hr : Reachable P K f defs false (b, w)) {l out : List Byte} (hp : Pending b l) (hu : Unread b out) (ops : List Io) :
    SameOutcome (runAll (Io.run P) ops (b, w)) (runAll (Io.runM (protoOf K defs)) ops (⟨l, out⟩, w)) := by
  rcases C46_departures h hr hp hu ops with h1 | ⟨_, h1⟩ | ⟨_, h1⟩
  · exact h1
  · exact absurd ho h1
  · exact absurd hs h1

/-- Any reachable state stands for a state of the machine. -/
theorem C46_states (h : Setting P K f defs) {shared : Bool} {b : Buf σ} {w : σ} (hr : Reachable P K f defs shared (b, w)) :
    ∃ l out, Pending b l ∧ Unread b out := by
  obtain ⟨_, _, _, m, hm⟩ := reachable_inv h hr
  exact ⟨m.pending, m.out, pending_relIn hm.inp, hm.outp⟩

end

/-- What the machine does: the response of `add(300, 7)` is read while a request for `probe` is received; then the response of `probe` is read. -/
example : runAll (Io.runM (protoOf ledRing ledDefs)) [.put 0#8, .put 0x2c#8, .put 1#8, .put 7#8, .put 2#8, .get, .put 0#8, .isLoaded, .get,
      .put 0#8, .get, .isLoaded] (⟨[], []⟩, ([], [], [])) =
    .ret [.status .loading, .status .loading, .status .loading, .status .resolved, .status .loading, .byte 0x33#8, .status .loading, .bool true,
      .byte 0x01#8, .status .resolved, .byte 0xff#8, .bool true]
      (⟨[], [0xff#8]⟩, ([], [[.int 1, .int 300, .int 7], [.int 3, .int 0, .int 0]], [])) := rfl

example (ops : List Io) (w : _) :
    SameOutcome (runAll (Io.run pc) ops (fresh pc ledRing .any ledDefs (2 ^ 64 - 1) false, w))
      (runAll (Io.runM (protoOf ledRing ledDefs)) ops (⟨[], []⟩, w)) :=
  C46_machine_partial (led_setting .any) (led_fit false) led_decode (led_start .any false w) (fresh_pending _ _ _ _ _ _)
    (fresh_rel (led_setting .any) _ _).outp ops

/-! ## C47 -/

/-- C47 as stated. -/
def C47_Statement : Prop :=
  ∀ (σ : Type) (P : Platform) (K : Keyring) (f : Features) (defs : Nat → List Val → Eff σ (Option Val)) (sizeMax : Nat) (w : σ)
    (ops : List Io), Setting P K f defs → Drained P ops (fresh P K f defs sizeMax true, w) →
    SameOutcome (runAll (Io.run P) ops (fresh P K f defs sizeMax true, w))
      (runAll (Io.run P) ops (fresh P K f defs sizeMax false, w))

/-- `uint8_t get()`. -/
def get8Ring : Keyring := ⟨.little, .twosComplement, [⟨1, [], some (.uint 1)⟩]⟩

/-- Returns 0x12. -/
def get8Defs : Nat → List Val → Eff Unit (Option Val) := fun _ _ w => .ret (some (.int 0x12)) w

theorem get8_setting (f : Features) : Setting pc get8Ring f get8Defs where
  valid := pc_valid
  ring := ⟨by decide, by simp [get8Ring, SigOk, Ty.WFs, Ty.WF, PackedAll, Packed]⟩
  sup := pc_supported _ _
  sizes := by simp [get8Ring]
  typed := by
    intro d hd args w r w' _ h
    simp only [get8Ring, List.mem_singleton] at hd
    subst hd
    cases h
    simp [RetOk, Val.Fits]

/-- A single buffered dispatcher which has received the index of `widen`. -/
def widenLoading1 : Buf Unit := { fresh pc widenRing .any widenDefs 65535 true with
  ibuf := [0#8, pc.junk 1], ibufNext := 1, indexLoaded := true, loadCount := 1 }

/-- The same after the response. -/
def widenDone1 : Buf Unit := { fresh pc widenRing .any widenDefs 65535 true with ibuf := [0x34#8, 0x12#8], obufBottom := 2 }

theorem widen_put1 : Io.run pc (.put 0#8) (fresh pc widenRing .any widenDefs 65535 true, ()) = .ret (.status .loading) (widenLoading1, ()) := rfl

theorem widen_put2 : Io.run pc (.put 7#8) (widenLoading1, ()) = .ret (.status .resolved) (widenDone1, ()) := rfl

theorem widen_single : runAll (Io.run pc) [.put 0#8, .put 7#8] (fresh pc widenRing .any widenDefs 65535 true, ()) =
    .ret [.status .loading, .status .resolved] (widenDone1, ()) := by
  have h : runAll (Io.run pc) [] (widenDone1, ()) = .ret [] (widenDone1, ()) := rfl
  rw [runAll, Eff.bind_ret widen_put1, runAll]
  exact Eff.bind_ret ((Eff.bind_ret widen_put2).trans (Eff.bind_ret h))

theorem widen_drained : Drained pc [.put 0#8, .put 7#8] (fresh pc widenRing .any widenDefs 65535 true, ()) := by
  rw [Drained]
  refine ⟨fun _ => rfl, fun o st h => ?_⟩
  rw [widen_put1] at h
  cases h
  rw [Drained]
  exact ⟨fun _ => rfl, fun _ _ _ => trivial⟩

seal SameOutcome runAll Drained in
/-- C47 does not hold for all keyrings: the response may fit in the buffer of the single buffered dispatcher, which has also room for the index,
but not in the output buffer of the double buffered one (C43). -/
theorem C47_full_statement_is_false : ¬ C47_Statement := by
  intro h
  exact (not_sameOutcome widen_double_overrun widen_single).2
    (h Unit pc widenRing .any widenDefs 65535 () [.put 0#8, .put 7#8] (widen_setting .any) widen_drained)

theorem SameOutcome.trans' {α β δ γ : Type} {r1 : Res (α × σ) γ} {r2 : Res (β × σ) γ} {r3 : Res (δ × σ) γ}
    (h1 : SameOutcome r1 r2) (h2 : SameOutcome r3 r2) : SameOutcome r1 r3 := by
  cases r1 <;> cases r2 <;> cases r3 <;> simp_all [SameOutcome]

section
variable {P : Platform} {K : Keyring} {f : Features} {defs : Nat → List Val → Eff σ (Option Val)}

/-- C47, partial: keyrings of which the responses fit in the output buffer of a double buffered dispatcher and the parameters can be decoded from
any bytes. A single buffered dispatcher on which each response is drained before the next byte is put gives the same results and calls as a double
buffered one with the same pending bytes and unread bytes. Missing: the other keyrings, for which it does not hold. -/
theorem C47_half_duplex_partial (h : Setting P K f defs) (ho : ResponsesFit K false) (hs : AllDecodeSafe P K) {b1 b2 : Buf σ} {w : σ}
    (hr1 : Reachable P K f defs true (b1, w)) (hr2 : Reachable P K f defs false (b2, w)) {l out : List Byte} (hp1 : Pending b1 l)
    (hp2 : Pending b2 l) (hu1 : Unread b1 out) (hu2 : Unread b2 out) (ops : List Io) (hd : Drained P ops (b1, w)) :
    SameOutcome (runAll (Io.run P) ops (b1, w)) (runAll (Io.run P) ops (b2, w)) := by
  refine SameOutcome.trans' ?_ (C46_machine_partial h ho hs hr2 hp2 hu2 ops)
  obtain ⟨hb, hlen, hsh, out', hm⟩ := reachable_pending h hr1 hp1
  have := unread_unique hm.outp hu1
  simp only at this
  subst this
  have ho' : ResponsesFit K true := by
    intro d hd
    have := ho d hd
    simp only [if_true, neededInput, neededOutput] at this ⊢
    simp at this
    omega
  rcases runAll_follows h.valid (ops := ops) (w := w) hm hb (fun _ => hd) with h1 | ⟨flt, _, h2⟩
  · exact h1.sameOutcome
  · rcases departs_not hlen h2 with ⟨_, h3⟩ | ⟨_, h4⟩
    · exact absurd ho' h3
    · exact absurd hs h4

/-- C47: the discipline is needed. If a response has not been read at all, the next byte put, when it does not complete a packet, overwrites
the first byte of the response: `get` gives it back. -/
theorem C47_discipline_needed (h : Setting P K f defs) {b : Buf σ} {w : σ} (hr : Reachable P K f defs true (b, w)) (hp : Pending b [])
    {y : Byte} {out : List Byte} (hu : Unread b (y :: out)) (h0 : b.obufNext = 0) {x : Byte} (hx : Incomplete (protoOf K defs) [x]) :
    ∃ b', runAll (Io.run P) [.put x, .get] (b, w) = .ret [.status .loading, .byte x] (b', w) := by
  obtain ⟨hb, hlen, hsh, out', hm⟩ := reachable_pending h hr hp
  obtain ⟨b1, h1, h2, h3, h4⟩ := put_more h.valid hm.inp hb (x := x) (classify_more_iff.2 hx) w
  have hn : b1.obufNext = 0 := h4.next.trans h0
  have hbt : b1.obufBottom = b.obufBottom := h4.bottom
  have hbot := hu.bottom
  simp only [List.length_cons] at hbot
  have hld : b1.isLoaded = true := by
    unfold Buf.isLoaded
    simp only [bne_iff_ne]
    omega
  have hlen1 : b1.out.length = b.out.length := h3.outLen
  have hle := hu.le
  have hbs : b1.out[0]? = some x := by
    have hsh1 : b1.shared = true := by rw [h3.shared]; exact hsh
    have ho : b1.out = b1.ibuf := by unfold Buf.out; rw [if_pos hsh1]
    have := h2.bytes
    simp only [List.nil_append, List.length_singleton] at this
    rw [slice_succ (by rw [← ho]; omega)] at this
    injection this with this
    rw [ho, List.getElem?_eq_getElem (by rw [← ho]; omega), this]
  have hg : Buf.get (b1, w) = .ret x ({ b1 with obufNext := 1 }, w) := by
    unfold Buf.get
    simp only [hld, if_true]
    unfold Buf.popOut
    rw [hn, hbs]
  refine ⟨{ b1 with obufNext := 1 }, ?_⟩
  have h5 : runAll (Io.run P) [.get] (b1, w) = .ret [Obs.byte x] ({ b1 with obufNext := 1 }, w) :=
    (Eff.bind_ret (x := Io.run P .get) (Eff.bind_ret hg)).trans rfl
  exact (Eff.bind_ret (x := Io.run P (.put x)) (Eff.bind_ret h1)).trans ((Eff.bind_ret h5).trans rfl)

end

/-- `put`, `get`, `put`: a sequence which respects the discipline. -/
example : Drained pc [.put 0#8, .get, .put 0#8] (fresh pc get8Ring .any get8Defs 255 true, ()) := by
  refine ⟨fun _ => rfl, fun o st h => ?_⟩
  have h1 : Io.run pc (.put 0#8) (fresh pc get8Ring .any get8Defs 255 true, ()) =
      .ret (.status .resolved) ({ fresh pc get8Ring .any get8Defs 255 true with ibuf := [0x12#8], obufBottom := 1 }, ()) := rfl
  rw [h1] at h
  cases h
  refine ⟨fun ⟨_, h⟩ => (by cases h), fun o st h => ?_⟩
  cases h
  exact ⟨fun _ => rfl, fun _ _ _ => trivial⟩

example (w : _) (ops : List Io) (hd : Drained pc ops (fresh pc ledRing .any ledDefs (2 ^ 64 - 1) true, w)) :
    SameOutcome (runAll (Io.run pc) ops (fresh pc ledRing .any ledDefs (2 ^ 64 - 1) true, w))
      (runAll (Io.run pc) ops (fresh pc ledRing .any ledDefs (2 ^ 64 - 1) false, w)) :=
  C47_half_duplex_partial (led_setting .any) (led_fit false) led_decode (led_start .any true w) (led_start .any false w)
    (fresh_pending _ _ _ _ _ _) (fresh_pending _ _ _ _ _ _) (fresh_rel (led_setting .any) _ _).outp (fresh_rel (led_setting .any) _ _).outp ops hd

example (b : Buf (List Byte × List (List Val) × List Byte)) (w : _) (hr : Reachable pc ledRing .any ledDefs true (b, w)) (hp : Pending b [])
    (hu : Unread b [0x33#8, 0x01#8]) (h0 : b.obufNext = 0) :
    ∃ b', runAll (Io.run pc) [.put 2#8, .get] (b, w) = .ret [.status .loading, .byte 2#8] (b', w) :=
  C47_discipline_needed (led_setting .any) hr hp hu h0 (classify_more_iff.1 rfl)

/-! ## Further uses -/

example (w : List Byte × List (List Val) × List Byte) (ops : List Io) :
    SameOutcome (runAll (Io.run pc) ops (fresh pc ledRing .any ledDefs (2 ^ 64 - 1) false, w))
      (runAll (Io.runM (protoOf ledRing ledDefs)) ops (⟨[], []⟩, w)) := by
  rcases C46_departures (led_setting .any) (led_start .any false w) (fresh_pending _ _ _ _ _ _) (fresh_rel (led_setting .any) _ _).outp ops with
    h | ⟨_, h⟩ | ⟨_, h⟩
  · exact h
  · exact (h (led_fit false)).elim
  · exact (h led_decode).elim

example (w : List Byte × List (List Val) × List Byte) : ∃ l out, Pending (fresh pc ledRing .any ledDefs (2 ^ 64 - 1) true) l ∧
    Unread (fresh pc ledRing .any ledDefs (2 ^ 64 - 1) true) out :=
  C46_states (led_setting .any) (led_start .any true w)

end Upd
