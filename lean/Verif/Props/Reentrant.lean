import Verif.Lemmas.Reentrant
import Verif.Lemmas.Faults
import Verif.Props.Buffered

/-!
# Callbacks which use the buffered dispatcher that runs them (C87)

A callback, or an interrupt handler which runs during it, calls the member functions of the dispatcher which is processing the packet. `Buf.putR` is
`put` for such callbacks, `Buf.put` is `put` for callbacks which do not refer to the dispatcher.
-/

namespace Upd
open Spec TypeList

variable {σ : Type}

section
variable {P : Platform} {K : Keyring} {f : Features} {defs : Nat → List Val → Prog σ} {room : Nat → Nat}

/-- C87: what a callback gets from the dispatcher which runs it. For any calls of `put`, `get` and `is_loaded` on a new dispatcher, everything that can be
observed is the same as if the callbacks did not refer to the dispatcher and behaved as `flat` says: as long as there is room in the input buffer,
`put` returns LOADING_PACKET and the byte is forgotten; after that, `put` overruns the buffer; `get` returns 0, `is_loaded` returns false, `write_to`
writes nothing; `read_from` ends with an overrun of the buffer unless the getter throws; `reply` sends unspecified bytes and returns true. -/
theorem C87_refinement (h : Setting P K f fun name args => flat P (room name) (defs name args)) (hroom : Leaves K room) {sizeMax : Nat}
    (hsz : neededInput K ≤ sizeMax) (shared : Bool) (depth : Nat) (ops : List Io) (w : σ) :
    SameOutcome (runAll (Io.runR P K f defs depth) ops (Buf.freshR P K f sizeMax shared, w))
      (runAll (Io.run P) ops (fresh P K f (fun name args => flat P (room name) (defs name args)) sizeMax shared, w)) := by
  rcases runAll_sim h hroom (fl := fun name args => flat P (room name) (defs name args)) (fun _ _ _ => Or.inl rfl) depth ops (w := w)
    (fresh_sim h hsz shared) with h1 | ⟨⟨_, _, _, h1⟩, _⟩
  · revert h1
    cases runAll (Io.runR P K f defs depth) ops (Buf.freshR P K f sizeMax shared, w) <;>
      cases runAll (Io.run P) ops (fresh P K f (fun name args => flat P (room name) (defs name args)) sizeMax shared, w) <;>
        intro h1 <;> simp only [RSimRes, SameOutcome] at h1 ⊢
    · exact ⟨h1.1, h1.2.1⟩
    · exact h1
    · exact h1
  · exact absurd rfl h1

/-- The bound on the number of calls in progress has no effect: a call made by a callback never runs a callback. -/
theorem C87_depth (h : Setting P K f fun name args => flat P (room name) (defs name args)) (hroom : Leaves K room) {sizeMax : Nat}
    (hsz : neededInput K ≤ sizeMax) (shared : Bool) (d1 d2 : Nat) (ops : List Io) (w : σ) :
    SameOutcome (runAll (Io.runR P K f defs d1) ops (Buf.freshR P K f sizeMax shared, w))
      (runAll (Io.runR P K f defs d2) ops (Buf.freshR P K f sizeMax shared, w)) := by
  have h1 := C87_refinement h hroom hsz shared d1 ops w
  have h2 := C87_refinement h hroom hsz shared d2 ops w
  revert h1 h2
  cases runAll (Io.runR P K f defs d1) ops (Buf.freshR P K f sizeMax shared, w) <;>
    cases runAll (Io.runR P K f defs d2) ops (Buf.freshR P K f sizeMax shared, w) <;>
      cases runAll (Io.run P) ops (fresh P K f (fun name args => flat P (room name) (defs name args)) sizeMax shared, w) <;>
        intro h1 h2 <;> simp only [SameOutcome] at h1 h2 ⊢
  · exact ⟨h1.1.trans h2.1.symm, h1.2.trans h2.2.symm⟩
  · exact h1.trans h2.symm
  · exact h1.trans h2.symm

theorem flat_deaf (P : Platform) : ∀ (p : Prog σ) {room : Nat} {w w' : σ} {r : Option Val}, flat P room p w = .ret r w' → deaf P p w = .ret r w'
  | .done r, _, _, _, _, h => by unfold flat at h; unfold deaf; exact h
  | .look k, _, w, _, _, h => by unfold flat at h; unfold deaf; exact flat_deaf P (k w) h
  | .step x k, room, w, w', r, h => by
    unfold flat at h
    unfold deaf
    cases hs : x w with
    | fault f => rw [Eff.bind_fault hs] at h; cases h
    | threw w1 => rw [Eff.bind_threw hs] at h; cases h
    | ret _ w1 => rw [Eff.bind_ret hs] at h ⊢; exact flat_deaf P k h
  | .put x k, 0, w, w', r, h => by unfold flat at h; cases h
  | .put x k, room + 1, w, w', r, h => by unfold flat at h; unfold deaf; exact flat_deaf P (k .loading) h
  | .get k, _, _, _, _, h => by unfold flat at h; unfold deaf; exact flat_deaf P (k 0#8) h
  | .isLoaded k, _, _, _, _, h => by unfold flat at h; unfold deaf; exact flat_deaf P (k false) h
  | .readFrom src k, room, w, w', r, h => by unfold flat at h; exact absurd h (swallow_ne_ret src room w w' r)
  | .writeTo dest k, _, _, _, _, h => by unfold flat at h; unfold deaf; exact flat_deaf P k h
  | .reply key n output k, room, w, w', r, h => by
    unfold flat at h
    unfold deaf
    cases hs : key.writeTo P [.arr ((P.junkBytes n).map fun x => .int x.toNat)] output w with
    | fault f => rw [Eff.bind_fault hs] at h; cases h
    | threw w1 => rw [Eff.bind_threw hs] at h; cases h
    | ret _ w1 => rw [Eff.bind_ret hs] at h ⊢; exact flat_deaf P (k true) h

theorem flat_quiet (P : Platform) {p : Prog σ} (hq : Quiet p) (room : Nat) : flat P room p = deaf P p := by
  induction hq with
  | done r => unfold flat deaf; rfl
  | look h ih => unfold flat deaf; funext w; exact congrFun (ih w) w
  | step x h ih => unfold flat deaf; rw [ih]
  | get h ih => unfold flat deaf; exact ih _
  | isLoaded h ih => unfold flat deaf; exact ih _
  | writeTo dest h ih => unfold flat deaf; exact ih
  | reply key n output h ih => unfold flat deaf; rw [ih]

/-- The callbacks behave well if the dispatcher ignores them. -/
theorem flat_setting (h : Setting P K f fun name args => deaf P (defs name args)) : Setting P K f fun name args => flat P (room name) (defs name args) :=
  ⟨h.valid, h.ring, h.sup, h.sizes, fun d hd args w r w' hf hr => h.typed d hd args w r w' hf (flat_deaf P _ hr)⟩

/-- C87, bytes are lost: if the calls return, then everything that can be observed is the same as if nothing had been put by the callbacks
(`deaf`). In particular the bytes they put are not part of any packet. -/
theorem C87_lost (h : Setting P K f fun name args => deaf P (defs name args)) (hroom : Leaves K room) {sizeMax : Nat} (hsz : neededInput K ≤ sizeMax)
    (shared : Bool) (depth : Nat) (ops : List Io) {w w' : σ} {os : List Obs} {b' : Buf σ}
    (hr : runAll (Io.runR P K f defs depth) ops (Buf.freshR P K f sizeMax shared, w) = .ret os (b', w')) :
    ∃ b, runAll (Io.run P) ops (fresh P K f (fun name args => deaf P (defs name args)) sizeMax shared, w) = .ret os (b, w') := by
  have hfl : ∀ name args w, deaf P (defs name args) w = flat P (room name) (defs name args) w ∨
      ∀ r w', flat P (room name) (defs name args) w ≠ .ret r w' := by
    intro name args w
    cases hq : flat P (room name) (defs name args) w with
    | ret r w' => exact Or.inl (flat_deaf P _ hq)
    | threw w' => exact Or.inr fun _ _ h => by cases h
    | fault e => exact Or.inr fun _ _ h => by cases h
  rcases runAll_sim (flat_setting h) hroom (fl := fun name args => deaf P (defs name args)) hfl depth ops (w := w) (fresh_sim h hsz shared) with
    h1 | ⟨_, h1⟩
  · rw [hr] at h1
    cases h2 : runAll (Io.run P) ops (fresh P K f (fun name args => deaf P (defs name args)) sizeMax shared, w) with
    | ret os2 st =>
      rw [h2] at h1
      obtain ⟨rfl, rfl, _⟩ := h1
      exact ⟨st.1, rfl⟩
    | threw st => rw [h2] at h1; exact h1.elim
    | fault e => rw [h2] at h1; exact h1.elim
  · exact absurd hr (h1 _ _)

/-- C87, partial: the callbacks which give no byte to the dispatcher (`Quiet`: neither `put` nor `read_from`) may call the other member functions: these do
nothing. Missing: the other ones (`C87_overrun`, `C87_read_from`, `C87_lost`). -/
theorem C87_quiet_partial (h : Setting P K f fun name args => deaf P (defs name args)) (hroom : Leaves K room) {sizeMax : Nat}
    (hsz : neededInput K ≤ sizeMax) (hq : ∀ name args, Quiet (defs name args)) (shared : Bool) (depth : Nat) (ops : List Io) (w : σ) :
    SameOutcome (runAll (Io.runR P K f defs depth) ops (Buf.freshR P K f sizeMax shared, w))
      (runAll (Io.run P) ops (fresh P K f (fun name args => deaf P (defs name args)) sizeMax shared, w)) := by
  have e : (fun name args => flat P (room name) (defs name args)) = fun name args => deaf P (defs name args) := by
    funext name args
    exact flat_quiet P (hq name args) _
  have := C87_refinement (flat_setting (room := room) h) hroom hsz shared depth ops w
  rw [e] at this
  exact this

theorem runAll_puts (P : Platform) : ∀ (bs : List Byte),
    (runAll (Io.run P) (bs.map .put) : Eff (BState σ) (List Obs)) = (puts P bs >>= fun sts => pure (sts.map .status))
  | [] => rfl
  | x :: bs => by
    show ((Buf.put P x >>= fun st => pure (.status st)) >>= fun o => runAll (Io.run P) (bs.map .put) >>= fun os => pure (o :: os)) =
      ((Buf.put P x >>= fun st => puts P bs >>= fun sts => pure (st :: sts)) >>= fun sts => pure (sts.map .status) : Eff (BState σ) (List Obs))
    rw [runAll_puts P bs]
    simp only [bind_assoc, pure_bind, List.map_cons]

/-- A request put in a new dispatcher, according to what the callback does. -/
theorem requestR (h : Setting P K f fun name args => flat P (room name) (defs name args)) (hroom : Leaves K room) {sizeMax : Nat}
    (hsz : neededInput K ≤ sizeMax) (shared : Bool) (depth : Nat) {i : Nat} (hi : i < K.decls.length) {args : List Val}
    (hf : Val.FitsAll (Safe P K.s) K.decls[i].sig.params args) (w : σ) :
    (∀ e, flat P (room K.decls[i].name) (defs K.decls[i].name args) w = .fault e →
      runAll (Io.runR P K f defs depth) ((request K.e K.s K.idxBytes i K.decls[i].sig.params args).map .put) (Buf.freshR P K f sizeMax shared, w) =
        .fault e) ∧
    (∀ w', flat P (room K.decls[i].name) (defs K.decls[i].name args) w = .threw w' →
      ∃ b, runAll (Io.runR P K f defs depth) ((request K.e K.s K.idxBytes i K.decls[i].sig.params args).map .put)
        (Buf.freshR P K f sizeMax shared, w) = .threw (b, w')) := by
  have h1 := C87_refinement h hroom hsz shared depth ((request K.e K.s K.idxBytes i K.decls[i].sig.params args).map .put) w
  obtain ⟨r1, r2, r3⟩ := request_parts h hi hf
  have hb := fresh_ok h sizeMax shared
  have hcb := hb.serves.sig _ (mem_of_get r2)
  have hdec := decodes_args h.valid hb.serves.sup hcb hf
  have hun := unwires_wires h.valid h.sup hcb.1 hcb.2.1 hf
  have hx := readAll_exact h.valid h.sup K.decls[i].sig.params (wires K.e K.s K.decls[i].sig.params args) 0 hcb.1 hcb.2.1 (by omega)
  rw [slice_all r3] at hx
  have hu : undecodables P K.e K.s K.decls[i].sig.params (wires K.e K.s K.decls[i].sig.params args) = none := by
    have hd1 : readAll P K.e K.s K.decls[i].sig.params (wires K.e K.s K.decls[i].sig.params args) 0 = _ := hdec.1
    rw [hd1] at hx
    cases hu : undecodables P K.e K.s K.decls[i].sig.params (wires K.e K.s K.decls[i].sig.params args) with
    | none => rfl
    | some e => rw [hu] at hx; cases hx
  have hp := puts_call_exact h.valid w (fresh_rel h sizeMax shared).inp hb r1 r2 r3
  have hu' : undecodables P (protoOf K fun name args => flat P (room name) (defs name args)).e
    (protoOf K fun name args => flat P (room name) (defs name args)).s K.decls[i].sig.params (wires K.e K.s K.decls[i].sig.params args) = none := hu
  have hun' : unwires (protoOf K fun name args => flat P (room name) (defs name args)).e
    (protoOf K fun name args => flat P (room name) (defs name args)).s K.decls[i].sig.params (wires K.e K.s K.decls[i].sig.params args) = args := hun
  rw [hu'] at hp
  simp only [hun'] at hp
  rw [runAll_puts] at h1
  constructor
  · intro e he
    rw [he] at hp
    have hp : puts P (request K.e K.s K.idxBytes i K.decls[i].sig.params args) _ = _ := hp
    rw [Eff.bind_fault hp] at h1
    revert h1
    cases runAll (Io.runR P K f defs depth) ((request K.e K.s K.idxBytes i K.decls[i].sig.params args).map .put) (Buf.freshR P K f sizeMax shared, w) <;>
      intro h1 <;> simp only [SameOutcome] at h1
    rw [h1]
  · intro w' he
    rw [he] at hp
    obtain ⟨b, hp⟩ := hp
    have hp : puts P (request K.e K.s K.idxBytes i K.decls[i].sig.params args) _ = _ := hp
    rw [Eff.bind_threw hp] at h1
    revert h1
    cases runAll (Io.runR P K f defs depth) ((request K.e K.s K.idxBytes i K.decls[i].sig.params args).map .put) (Buf.freshR P K f sizeMax shared, w) <;>
      intro h1 <;> simp only [SameOutcome] at h1
    rename_i st
    exact ⟨st.1, by rw [← h1]⟩

/-- The callback puts the bytes `xs` one after the other, then goes on. -/
def putting (xs : List Byte) (k : Prog σ) : Prog σ := xs.foldr (fun x p => .put x fun _ => p) k

theorem flat_putting (P : Platform) (k : Prog σ) : ∀ (xs : List Byte) (room : Nat) (w : σ),
    flat P room (putting xs k) w = if xs.length ≤ room then flat P (room - xs.length) k w else .fault .ibufOverrun
  | [], room, w => by simp [putting]
  | x :: xs, 0, w => by
    show flat P 0 (.put x fun _ => putting xs k) w = _
    unfold flat
    rw [if_neg (by simp)]
    rfl
  | x :: xs, room + 1, w => by
    have e : flat P (room + 1) (putting (x :: xs) k) w = flat P room (putting xs k) w := rfl
    rw [e, flat_putting P k xs room w]
    simp only [List.length_cons, Nat.add_le_add_iff_right, Nat.add_sub_add_right]

/-- C87, overrun: a callback which puts more bytes in its dispatcher than its packet leaves free writes out of the input buffer. For the function with the
largest parameters, one byte is enough. -/
theorem C87_overrun (h : Setting P K f fun name args => flat P (room name) (defs name args)) (hroom : Leaves K room) {sizeMax : Nat}
    (hsz : neededInput K ≤ sizeMax) (shared : Bool) (depth : Nat) {i : Nat} (hi : i < K.decls.length) {args : List Val}
    (hf : Val.FitsAll (Safe P K.s) K.decls[i].sig.params args) {xs : List Byte} {k : Prog σ} (hd : defs K.decls[i].name args = putting xs k)
    (hlt : neededInput K < K.idxBytes + wireSizes K.decls[i].sig.params + xs.length) (w : σ) :
    runAll (Io.runR P K f defs depth) ((request K.e K.s K.idxBytes i K.decls[i].sig.params args).map .put) (Buf.freshR P K f sizeMax shared, w) =
      .fault .ibufOverrun := by
  refine (requestR h hroom hsz shared depth hi hf w).1 _ ?_
  have := hroom _ (List.getElem_mem hi)
  rw [hd, flat_putting, if_neg (by omega)]

/-- C87, `read_from` (and so `operator()`) called by a callback never returns: the getter is called until it throws, or until the input buffer is overrun. -/
theorem C87_read_from (h : Setting P K f fun name args => flat P (room name) (defs name args)) (hroom : Leaves K room) {sizeMax : Nat}
    (hsz : neededInput K ≤ sizeMax) (shared : Bool) (depth : Nat) {i : Nat} (hi : i < K.decls.length) {args : List Val}
    (hf : Val.FitsAll (Safe P K.s) K.decls[i].sig.params args) {src : Eff σ Byte} {k : Status → Prog σ}
    (hd : defs K.decls[i].name args = .readFrom src k) (w : σ) :
    (∀ bs w', Yields src w bs w' → neededInput K < K.idxBytes + wireSizes K.decls[i].sig.params + bs.length →
      runAll (Io.runR P K f defs depth) ((request K.e K.s K.idxBytes i K.decls[i].sig.params args).map .put) (Buf.freshR P K f sizeMax shared, w) =
        .fault .ibufOverrun) ∧
    ∀ os st, runAll (Io.runR P K f defs depth) ((request K.e K.s K.idxBytes i K.decls[i].sig.params args).map .put)
      (Buf.freshR P K f sizeMax shared, w) ≠ .ret os st := by
  have hr := requestR h hroom hsz shared depth hi hf w
  have hrm := hroom _ (List.getElem_mem hi)
  rw [hd] at hr
  unfold flat at hr
  constructor
  · intro bs w' hy hlt
    refine hr.1 _ ?_
    have key : ∀ (room : Nat) {w : σ} {bs : List Byte} {w' : σ}, Yields src w bs w' → room < bs.length →
        swallow (α := Option Val) src room w = .fault .ibufOverrun := by
      intro room
      induction room with
      | zero =>
        intro w bs w' hy hlt
        cases hy with
        | nil => simp at hlt
        | cons h0 _ => unfold swallow; rw [Eff.bind_ret h0]; rfl
      | succ room ih =>
        intro w bs w' hy hlt
        cases hy with
        | nil => simp at hlt
        | cons h0 hy => unfold swallow; rw [Eff.bind_ret h0]; exact ih hy (by simpa using hlt)
    exact key _ hy (by omega)
  · intro os st h0
    cases hs : swallow (α := Option Val) src (room K.decls[i].name) w with
    | ret a w' => exact swallow_ne_ret src _ _ _ _ hs
    | threw w' => obtain ⟨b, h1⟩ := hr.2 _ hs; rw [h1] at h0; cases h0
    | fault e => rw [hr.1 _ hs] at h0; cases h0

end

/-- C87: the member functions of a buffered dispatcher can be called by the callbacks it runs, when these behave well otherwise. -/
def C87_Statement : Prop :=
  ∀ (σ : Type) (P : Platform) (K : Keyring) (f : Features) (defs : Nat → List Val → Prog σ) (sizeMax : Nat) (shared : Bool) (depth : Nat) (ops : List Io)
    (w : σ), Setting P K f (fun name args => deaf P (defs name args)) → neededInput K ≤ sizeMax →
    (∀ name args w, deaf P (defs name args) w ≠ .fault .ibufOverrun) →
    runAll (Io.runR P K f defs depth) ops (Buf.freshR P K f sizeMax shared, w) ≠ .fault .ibufOverrun

/-! ## Examples -/

/-- `void set(uint8_t)`, which puts a byte in its dispatcher, and `void nudge()`, which puts two bytes if `many`, one otherwise. -/
def nudgeRing : Keyring := ⟨.little, .twosComplement, [⟨1, [.uint 1], none⟩, ⟨2, [], none⟩]⟩

/-- The world is a log. -/
def nudgeDefs (many : Bool) : Nat → List Val → Prog (List Nat) := fun name _ =>
  match name with
  | 1 => .step (fun w => .ret () (w ++ [1])) (.put 1#8 fun _ => .done none)
  | _ => putting (if many then [0#8, 7#8] else [0#8]) (.isLoaded fun b => .step (fun w => .ret () (w ++ [if b then 3 else 2])) (.done none))

def nudgeRoom : Nat → Nat := fun name => if name = 1 then 0 else 1

theorem nudge_leaves : Leaves nudgeRing nudgeRoom := by
  unfold Leaves
  simp [nudgeRing, nudgeRoom]
  decide

theorem nudge_setting (many : Bool) (f : Features) : Setting pc nudgeRing f fun name args => deaf pc (nudgeDefs many name args) where
  valid := pc_valid
  ring := by
    refine ⟨by decide, ?_⟩
    simp [nudgeRing, SigOk, Ty.WFs, Ty.WF, PackedAll, Packed]
  sup := pc_supported _ _
  sizes := by simp [nudgeRing, Ty.sizeof, wireSize]
  typed := by
    simp only [nudgeRing, List.mem_cons, List.not_mem_nil, or_false, forall_eq_or_imp, forall_eq]
    refine ⟨?_, ?_⟩
    · intro args w r w' hf h
      injection h with h1 _
      subst h1
      simp [RetOk]
    · intro args w r w' hf h
      cases many <;> (injection h with h1 _; subst h1; simp [RetOk])

/-- C87 does not hold: `set(5)` puts one byte in the dispatcher which runs it, out of its buffer. -/
theorem C87_full_statement_is_false : ¬ C87_Statement := by
  intro h
  refine h (List Nat) pc nudgeRing .any (nudgeDefs false) 65535 false 0 [.put 0#8, .put 5#8] [] (nudge_setting false .any) (by decide) ?_ rfl
  intro name args w he
  unfold nudgeDefs at he
  split at he <;> cases he

/-- `nudge()` puts one byte, which fits and is lost. -/
example (ops : List Io) (w : List Nat) :
    SameOutcome (runAll (Io.runR pc nudgeRing .any (nudgeDefs false) 3) ops (Buf.freshR pc nudgeRing .any 255 true, w))
      (runAll (Io.run pc) ops (fresh pc nudgeRing .any (fun name args => flat pc (nudgeRoom name) (nudgeDefs false name args)) 255 true, w)) :=
  C87_refinement (flat_setting (nudge_setting false .any)) nudge_leaves (by decide) true 3 ops w

example (ops : List Io) (w : List Nat) :
    SameOutcome (runAll (Io.runR pc nudgeRing .any (nudgeDefs true) 3) ops (Buf.freshR pc nudgeRing .any 255 true, w))
      (runAll (Io.runR pc nudgeRing .any (nudgeDefs true) 0) ops (Buf.freshR pc nudgeRing .any 255 true, w)) :=
  C87_depth (room := nudgeRoom) (flat_setting (nudge_setting true .any)) nudge_leaves (by decide) true 3 0 ops w

/-- What can be observed of calls which return. -/
def observed {σ : Type} : Res (BState σ) (List Obs) → Option (List Obs × σ)
  | .ret os st => some (os, st.2)
  | _ => none

example : observed (runAll (Io.runR pc nudgeRing .any (nudgeDefs false) 3) [.put 1#8, .isLoaded, .put 1#8, .get] (Buf.freshR pc nudgeRing .any 255 true, [])) =
    some ([.status .resolved, .bool false, .status .resolved, .byte 0#8], [2, 2]) := by decide +kernel

/-- The two bytes which have been put by `nudge()` are not a call. -/
example {os : List Obs} {w' : List Nat} {b' : Buf (List Nat)}
    (hr : runAll (Io.runR pc nudgeRing .any (nudgeDefs false) 0) [.put 1#8, .put 1#8] (Buf.freshR pc nudgeRing .any 255 true, []) = .ret os (b', w')) :
    ∃ b, runAll (Io.run pc) [.put 1#8, .put 1#8] (fresh pc nudgeRing .any (fun name args => deaf pc (nudgeDefs false name args)) 255 true, []) =
      .ret os (b, w') :=
  C87_lost (defs := nudgeDefs false) (nudge_setting false .any) nudge_leaves (sizeMax := 255) (by decide) true 0 _ hr

/-- `ask()` looks at its dispatcher: nothing is loaded, `get` gives 0. -/
def askDefs : Nat → List Val → Prog (List Nat) := fun _ _ =>
  .isLoaded fun b => .get fun x => .step (fun w => .ret () (w ++ [if b then 1 else 0, x.toNat])) (.done none)

theorem ask_setting (f : Features) : Setting pc nudgeRing f fun name args => deaf pc (askDefs name args) where
  valid := pc_valid
  ring := (nudge_setting false f).ring
  sup := pc_supported _ _
  sizes := (nudge_setting false f).sizes
  typed := by
    simp only [nudgeRing, List.mem_cons, List.not_mem_nil, or_false, forall_eq_or_imp, forall_eq]
    refine ⟨?_, ?_⟩ <;>
    · intro args w r w' hf h
      injection h with h1 _
      subst h1
      simp [RetOk]

example : SameOutcome (runAll (Io.runR pc nudgeRing .any askDefs 1) [.put 1#8, .get] (Buf.freshR pc nudgeRing .any 255 true, []))
    (runAll (Io.run pc) [.put 1#8, .get] (fresh pc nudgeRing .any (fun name args => deaf pc (askDefs name args)) 255 true, [])) :=
  C87_quiet_partial (defs := askDefs) (ask_setting .any) nudge_leaves (sizeMax := 255) (by decide)
    (fun _ _ => .isLoaded fun _ => .get fun _ => .step _ (.done none)) true 1 _ []

/-- `nudge()` puts two bytes: the second one is out of the buffer. -/
example : runAll (Io.runR pc nudgeRing .any (nudgeDefs true) 0) [.put 1#8] (Buf.freshR pc nudgeRing .any 255 false, []) = .fault .ibufOverrun :=
  C87_overrun (room := nudgeRoom) (flat_setting (nudge_setting true .any)) nudge_leaves (sizeMax := 255) (by decide) false 0 (i := 1) (by decide)
    (args := []) (by simp [nudgeRing, Val.FitsAll]) (xs := [0#8, 7#8]) rfl (by decide) []

/-- `read_from` in a callback, with a getter which always gives 0. -/
example : runAll (Io.runR pc nudgeRing .any (fun _ _ => (.readFrom (fun w => .ret 0#8 w) fun _ => .done none : Prog Unit)) 0) [.put 1#8]
    (Buf.freshR pc nudgeRing .any 255 false, ()) = .fault .ibufOverrun := by
  have hs : Setting pc nudgeRing .any fun name _ => flat pc (nudgeRoom name) (.readFrom (fun w => .ret 0#8 w) fun _ => .done none : Prog Unit) :=
    ⟨pc_valid, (nudge_setting false .any).ring, pc_supported _ _, (nudge_setting false .any).sizes,
      fun d _ _ w r w' _ h => absurd h (by unfold flat; exact swallow_ne_ret _ _ _ _ _)⟩
  exact (C87_read_from (room := nudgeRoom) hs nudge_leaves (sizeMax := 255) (by decide) false 0 (i := 1) (by decide) (args := [])
    (by simp [nudgeRing, Val.FitsAll]) rfl ()).1 [0#8, 0#8] () (.cons rfl (.cons rfl (.nil _))) (by decide)

end Upd
