import Verif.Lemmas.AnyIterator
import Verif.Props.Iterator

/-!
# C114: iterators of any class
-/

namespace Upd
open Spec TypeList

variable {σ ι ο : Type} {P : Platform} {K : Keyring} {f : Features} {defs : Nat → List Val → Eff σ (Option Val)}

/-- C114, dispatchers. If `*it++` gives the bytes of a request, the function is called on the arguments, in the world which the reads have left, then the bytes of the response are stored by
`*it++ = byte` through the output iterator, in order. The outcome is the one of this, for all classes of iterators, which may have effects, throw, and be undefined past some end. -/
theorem C114_dispatcher (hP : P.Valid) (hK : KeyringOk K) (hs : Supported P K.e K.s) (ht : ∀ d ∈ K.decls, WellTyped P K.s ⟨d.sig, defs d.name⟩) (f : Features) {i : Nat}
    (hi : i < K.decls.length) {args : List Val} (hf : Val.FitsAll (Safe P K.s) K.decls[i].sig.params args) (next : InputIt σ ι) (store : OutputIt σ ο) {it it' : ι} (o : ο) {w w' : σ}
    (hy : ItYields next it w (request K.e K.s K.idxBytes i K.decls[i].sig.params args) it' w') :
    (Dispatcher.make K f defs).runWalk P next store it o w =
      (do
        let r ← defs K.decls[i].name args
        let _ ← storeAll store o (response K.e K.s K.decls[i].sig.ret r)
        pure i) w' := by
  have hg := hK.2 K.decls[i] (List.getElem_mem _)
  have hib : i < 256 ^ K.idxBytes := Nat.lt_trans hi (idxBytes_pos hK.1).2
  have h := run_request hP (D := Dispatcher.make K f defs) hs (idxBytes_pos hK.1).1 (i := i)
    (by show i < K.size; rw [K.size_eq hK.1]; exact hi) hib (make_acts hi) (makeAction_holds f K.e K.s _) hg Walk.world
    (dest := Walk.write store) hf (yields_walk hy o)
  have h2 := walk_respond hP hs hg (ht _ (List.getElem_mem hi)) hf (store := store) i it' o w'
  rw [← h2]
  unfold Dispatcher.runWalk Walk.scope
  rw [h]
  rfl

/-- C114, actions: as for dispatchers, without the index. -/
theorem C114_action (hP : P.Valid) {e : Endian} {s : Mode} (hs : Supported P e s) {cb : Callback σ} (hg : SigOk cb.sig) (hc : WellTyped P s cb) {a : Action σ}
    (ha : a = .stored e s cb ∨ a = .weak e s cb) {args : List Val} (hf : Val.FitsAll (Safe P s) cb.sig.params args) (next : InputIt σ ι) (store : OutputIt σ ο) {it it' : ι} (o : ο) {w w' : σ}
    (hy : ItYields next it w (wires e s cb.sig.params args) it' w') :
    a.invokeWalk P next store it o w =
      (do
        let r ← cb.fn args
        let _ ← storeAll store o (response e s cb.sig.ret r)
        pure ()) w' := by
  have h2 := walk_respond hP hs hg hc hf (store := store) () it' o w'
  rw [← h2]
  unfold Action.invokeWalk Walk.scope
  have hh : a.Holds e s cb := ha
  rw [hh.invoke, call_args hP hs hg Walk.world (dest := Walk.write store) hf (yields_walk hy o)]
  simp only [bind_pure_unit]

/-- C114, clients: sending a request stores its bytes through the iterator, in order, and does nothing else. -/
theorem C114_send (hP : P.Valid) {k : Key} (hs : Supported P k.e k.s) (hk : 1 ≤ k.idxBytes) (hi : k.index < 256 ^ k.idxBytes) (hg : SigOk k.sig) {args : List Val}
    (hf : Val.FitsAll (Safe P k.s) k.sig.params args) (store : OutputIt σ ο) (o : ο) (w : σ) :
    k.writeWalk P args store o w = (do
      let _ ← storeAll store o (request k.e k.s k.idxBytes k.index k.sig.params args)
      pure ()) w := by
  have h := scope_putAll (store := store) () (request k.e k.s k.idxBytes k.index k.sig.params args) () o w
  rw [← h]
  unfold Key.writeWalk Walk.scope
  rw [C29_request_format hP hs hk hi hg hf, bind_pure_unit]

/-- C114, clients: receiving a response whose bytes `*it++` gives. -/
theorem C114_receive (hP : P.Valid) {k : Key} (hs : Supported P k.e k.s) (hg : SigOk k.sig) {r : Option Val} (hr : RetOk P k.s k.sig.ret r) (next : InputIt σ ι) {it it' : ι} {w w' : σ}
    (hy : ItYields next it w (response k.e k.s k.sig.ret r) it' w') : k.readWalk P next it w = .ret r w' := by
  unfold Key.readWalk Walk.scope
  rw [C31_read_value hP hs hg hr _ (yields_walk hy ())]

/-- C114, buffered dispatchers, between two packets, on the iterators which are passed, whichever were passed before: as for dispatchers, and the dispatcher is ready for the next packet. -/
theorem C114_buffered (h : Setting P K f defs) {shared : Bool} {b : Buf (Walk ι ο σ)} {p : ι × ο} {w w' : σ} (hr : Reachable P K f (Walk.hosted defs) shared (b, p, w)) (hp : Pending b []) {i : Nat}
    (hi : i < K.decls.length) {args : List Val} (hf : Val.FitsAll (Safe P K.s) K.decls[i].sig.params args) (hroom : retSize K.decls[i].sig.ret ≤ outRoom K shared) (next : InputIt σ ι)
    (store : OutputIt σ ο) {it it' : ι} (o : ο) (hy : ItYields next it w (request K.e K.s K.idxBytes i K.decls[i].sig.params args) it' w') :
    match (do
      let r ← defs K.decls[i].name args
      storeAll store o (response K.e K.s K.decls[i].sig.ret r)) w' with
    | .ret _ w2 => ∃ b' p', Buf.processWalk P next store it o (b, p, w) = .ret .resolved (b', p', w2) ∧ Pending b' [] ∧ Unread b' []
    | .threw w2 => ∃ b' p', Buf.processWalk P next store it o (b, p, w) = .threw (b', p', w2)
    | .fault g => Buf.processWalk P next store it o (b, p, w) = .fault g := by
  have hg := h.ring.2 K.decls[i] (List.getElem_mem _)
  have hib : i < 256 ^ K.idxBytes := Nat.lt_trans hi (idxBytes_pos h.ring.1).2
  have h1 := run_request h.valid (D := Dispatcher.make K f (Walk.hosted defs)) h.sup (idxBytes_pos h.ring.1).1 (i := i)
    (by show i < K.size; rw [K.size_eq h.ring.1]; exact hi) hib (make_acts hi) (makeAction_holds f K.e K.s _) hg (Lens.whole (Walk ι ο σ))
    (dest := Walk.write store) hf (yields_walk hy o)
  rw [zoom_whole] at h1
  have h2 := walk_respond h.valid h.sup hg (h.typed _ (List.getElem_mem hi)) hf (store := store) i it' o w'
  dsimp only at h2
  have h3 := C48_request (walk_hosted_setting h) (reachable_world hr ((it, o), w)) hp hi hf hroom (yields_walk hy o) (Walk.write store)
  rw [h1] at h3
  unfold Walk.scope at h2
  unfold Walk.hosted at h3
  revert h2 h3
  dsimp only [Dispatcher.make]
  rw [show (defs K.decls[i].name args >>= fun r => storeAll store o (response K.e K.s K.decls[i].sig.ret r) >>= fun _ => (pure i : Eff σ Nat)) =
    ((defs K.decls[i].name args >>= fun r => storeAll store o (response K.e K.s K.decls[i].sig.ret r)) >>= fun _ => pure i) from (bind_assoc _ _ _).symm]
  generalize (Eff.zoom Walk.world (defs K.decls[i].name args) >>= fun r => respond P K.e K.s K.decls[i].sig.ret r (Walk.write store) >>= fun _ => pure i) ((it', o), w') = X
  have hb : ∀ (m : Eff σ ο), (m >>= fun _ => (pure i : Eff σ Nat)) w' = (match m w' with | .ret _ w2 => .ret i w2 | .threw w2 => .threw w2 | .fault g => .fault g) := by
    intro m
    cases hm : m w' with
    | ret a w2 => rw [Eff.bind_ret hm]; rfl
    | threw w2 => rw [Eff.bind_threw hm]
    | fault g => rw [Eff.bind_fault hm]
  rw [hb]
  cases (defs K.decls[i].name args >>= fun r => storeAll store o (response K.e K.s K.decls[i].sig.ret r)) w' <;> cases X <;> intro h2 h3 <;> dsimp only at h2 h3 ⊢ <;> cases h2
  · obtain ⟨b', h4, h5, h6⟩ := h3
    exact ⟨b', _, h4, h5, h6⟩
  · obtain ⟨b', h4⟩ := h3
    exact ⟨b', _, h4⟩
  · exact h3

/-- C114, `read_from` of a buffered dispatcher, between two packets. -/
theorem C114_buffered_read (h : Setting P K f defs) {shared : Bool} {b : Buf (Walk ι Unit σ)} {p : ι × Unit} {w w' : σ} (hr : Reachable P K f (Walk.hosted defs) shared (b, p, w)) (hp : Pending b [])
    {i : Nat} (hi : i < K.decls.length) {args : List Val} (hf : Val.FitsAll (Safe P K.s) K.decls[i].sig.params args) (hroom : retSize K.decls[i].sig.ret ≤ outRoom K shared) (next : InputIt σ ι)
    {it it' : ι} (hy : ItYields next it w (request K.e K.s K.idxBytes i K.decls[i].sig.params args) it' w') :
    match defs K.decls[i].name args w' with
    | .ret r w2 => ∃ b' p', Buf.readFromWalk P next it (b, p, w) = .ret .resolved (b', p', w2) ∧ Pending b' [] ∧ Unread b' (response K.e K.s K.decls[i].sig.ret r)
    | .threw w2 => ∃ b' p', Buf.readFromWalk P next it (b, p, w) = .threw (b', p', w2)
    | .fault g => Buf.readFromWalk P next it (b, p, w) = .fault g := by
  have h1 := C44_request (walk_hosted_setting h) (reachable_world hr ((it, ()), w)) hp hi hf hroom (yields_walk hy ())
  have hx : ∀ st, Walk.hosted (ι := ι) (ο := Unit) defs K.decls[i].name args (st, w') =
      match defs K.decls[i].name args w' with | .ret r w2 => .ret r (st, w2) | .threw w2 => .threw (st, w2) | .fault g => .fault g := by
    intro st
    unfold Walk.hosted Eff.zoom
    rw [show Walk.world.get (st, w') = w' from rfl]
    cases defs K.decls[i].name args w' <;> rfl
  rw [hx] at h1
  cases hd : defs K.decls[i].name args w' with
  | fault e => rw [hd] at h1; exact h1
  | threw w2 =>
    rw [hd] at h1
    obtain ⟨b', h1⟩ := h1
    exact ⟨b', _, h1⟩
  | ret r w2 =>
    rw [hd] at h1
    obtain ⟨b', h1, h2, h3⟩ := h1
    exact ⟨b', _, h1, h2, h3⟩

/-- C114, `write_to` of a buffered dispatcher: the bytes of the response are stored, in order. -/
theorem C114_buffered_write {b : Buf (Walk Unit ο σ)} {out : List Byte} (hu : Unread b out) (store : OutputIt σ ο) (o : ο) (p : Unit × ο) (w : σ) :
    match storeAll store o out w with
    | .ret _ w2 => ∃ b' p', Buf.writeToWalk store o (b, p, w) = .ret () (b', p', w2) ∧ Unread b' []
    | .threw w2 => ∃ b' p', Buf.writeToWalk store o (b, p, w) = .threw (b', p', w2)
    | .fault g => Buf.writeToWalk store o (b, p, w) = .fault g := by
  have h1 := writeTo_putAll (dest := Walk.write store) hu (((), o), w)
  have h2 := scope_putAll (store := store) () out () o w
  have h3 : Walk.scope () o (putAll (Walk.write store) out) w = (storeAll store o out >>= fun _ => pure ()) w := by rw [← h2, bind_pure_unit]
  unfold Walk.scope at h3
  cases hs : storeAll store o out w with
  | ret o2 w2 =>
    rw [Eff.bind_ret hs] at h3
    cases hq : putAll (Walk.write store) out (((), o), w) with
    | ret u q => rw [hq] at h1 h3; cases h3; exact ⟨_, _, h1, unread_drained hu⟩
    | threw q => rw [hq] at h3; cases h3
    | fault g => rw [hq] at h3; cases h3
  | threw w2 =>
    rw [Eff.bind_threw hs] at h3
    cases hq : putAll (Walk.write store) out (((), o), w) with
    | ret u q => rw [hq] at h3; cases h3
    | threw q => rw [hq] at h1 h3; cases h3; obtain ⟨n, h1⟩ := h1; exact ⟨_, _, h1⟩
    | fault g => rw [hq] at h3; cases h3
  | fault g =>
    rw [Eff.bind_fault hs] at h3
    cases hq : putAll (Walk.write store) out (((), o), w) with
    | ret u q => rw [hq] at h3; cases h3
    | threw q => rw [hq] at h3; cases h3
    | fault g => rw [hq] at h1 h3; cases h3; exact h1

/-- C114, iterators on streams (`std::istreambuf_iterator`, `std::back_insert_iterator`…), whose values do not matter: calls on iterators are the calls on the functors which read and write the
streams, whatever the bytes, even if they are not a request. -/
theorem C114_streams (hP : P.Valid) (hK : KeyringOk K) (hs : Supported P K.e K.s) {next : InputIt σ ι} {src : Eff σ Byte} (hn : StreamOf next src) {store : OutputIt σ ο} {dest : Byte → Eff σ Unit}
    (hd : SinkOf store dest) (it : ι) (o : ο) : (Dispatcher.make K f defs).runWalk P next store it o = (Dispatcher.make K f defs).run P (Lens.whole σ) src dest := by
  funext w
  exact scope_sim (SimV.run (T := SameBelow) (L := Walk.world) (L' := Lens.whole σ) hP hs (DispSim.make hK (R := (· = ·)) fun d _ args _ => sim_refl (defs d.name args)) (fun _ _ h => h) (fun _ _ _ _ _ h => h) (stream_sim hn) (sink_sim hd)) it o w

/-- C114, iterators on streams, buffered dispatchers: any number of calls in a row, each one given any iterators, on a new dispatcher, have the outcome of as many calls on functors: same statuses,
exception or fault, and same world. Successive calls serve successive requests of the stream, even if the same iterator is passed each time. -/
theorem C114_stream_calls (hP : P.Valid) (hK : KeyringOk K) (hs : Supported P K.e K.s) {next : InputIt σ ι} {src : Eff σ Byte} (hn : StreamOf next src) {store : OutputIt σ ο}
    {dest : Byte → Eff σ Unit} (hd : SinkOf store dest) (sizeMax : Nat) (shared : Bool) (calls : List (ι × ο)) (held : ι × ο) (w : σ) :
    Related (fun st st' => st.2.2 = st'.2) (· = ·) (walks P next store calls (fresh P K f (Walk.hosted defs) sizeMax shared, (held, w)))
      (turns P src dest calls.length (fresh P K f defs sizeMax shared, w)) := by
  have h := walks_sim hP hn hd calls (fresh P K f (Walk.hosted defs) sizeMax shared, (held, w)) (fresh P K f defs sizeMax shared, w)
    ⟨BufSim.fresh hK hs hosted_indistinct sizeMax shared, rfl⟩
  revert h
  cases walks P next store calls (fresh P K f (Walk.hosted defs) sizeMax shared, (held, w)) <;> cases turns P src dest calls.length (fresh P K f defs sizeMax shared, w) <;> intro h
  · exact ⟨h.1, h.2.2⟩
  · exact h.elim
  · exact h.elim
  · exact h.elim
  · exact h.2
  · exact h.elim
  · exact h.elim
  · exact h.elim
  · exact h

/-- C114, clients on streams: same requests, same responses. -/
theorem C114_stream_client (k : Key) {next : InputIt σ ι} {src : Eff σ Byte} (hn : StreamOf next src) {store : OutputIt σ ο} {dest : Byte → Eff σ Unit} (hd : SinkOf store dest) (args : List Val)
    (it : ι) (o : ο) : k.writeWalk P args store o = k.writeTo P args dest ∧ k.readWalk P next it = k.readFrom P src := by
  constructor
  · funext w
    exact scope_sim (SimV.seq (SimV.liftEq _) fun _ => SimV.putAll (sink_sim hd) _) () o w
  · funext w
    refine scope_sim ?_ it () w
    unfold Key.readFrom
    split
    · exact SimV.pure rfl
    · exact SimV.seq (SimV.readFrom (stream_sim hn) _ _ _) fun _ => SimV.seq (SimV.liftEq _) fun _ => SimV.pure rfl

/-- C114: the pointers of C64 are a class of iterators. -/
theorem C114_pointers (D : Dispatcher (Mem × σ)) (a : Action (Mem × σ)) (k : Key) (args : List Val) (input output : Nat) :
    D.runIt P input output = D.runWalk P pointerNext pointerStore input output ∧ a.invokeIt P input output = a.invokeWalk P pointerNext pointerStore input output ∧
      k.writeToIt P args output = (k.writeWalk P args pointerStore output : Eff (Mem × σ) Unit) ∧ k.readFromIt P input = (k.readWalk P pointerNext input : Eff (Mem × σ) (Option Val)) := by
  have hr : (Walk.read pointerNext : Eff (Its σ) Byte) = Its.read := by
    funext st
    obtain ⟨⟨i, o⟩, mem, w⟩ := st
    unfold Walk.read Its.read pointerNext
    dsimp only
    cases mem.rd i <;> rfl
  have hw : (Walk.write pointerStore : Byte → Eff (Its σ) Unit) = Its.write := by
    funext x st
    obtain ⟨⟨i, o⟩, mem, w⟩ := st
    unfold Walk.write Its.write pointerStore
    dsimp only
    cases mem.wr o x <;> rfl
  have hsc : ∀ {α : Type} (m : Eff (Its σ) α), Its.scope input output m = Walk.scope (σ := Mem × σ) input output m := by
    intro α m
    funext w
    unfold Its.scope Walk.scope
    cases m ((input, output), w) <;> rfl
  refine ⟨?_, ?_, ?_, ?_⟩
  · unfold Dispatcher.runIt Dispatcher.runWalk; rw [hr, hw, hsc]; rfl
  · unfold Action.invokeIt Action.invokeWalk; rw [hr, hw, hsc]; rfl
  · funext w
    have h : SimV (fun (st : Its σ) (st' : Walk Unit Nat (Mem × σ)) => st.1.2 = st'.1.2 ∧ st.2 = st'.2) (· = ·) (k.writeTo P args Its.write) (k.writeTo P args (Walk.write pointerStore)) := by
      refine SimV.seq (SimV.liftEq _) fun _ => SimV.putAll (fun x => ?_) _
      rintro ⟨⟨i, o⟩, mem, w⟩ ⟨⟨_, o'⟩, w'⟩ ⟨h1, h2⟩
      dsimp only at h1 h2
      subst h1; subst h2
      unfold Walk.write Its.write pointerStore
      dsimp only
      cases mem.wr o x with
      | ok m => exact ⟨rfl, rfl, rfl⟩
      | error g => exact rfl
    have h1 := h ((0, output), w) (((), output), w) ⟨rfl, rfl⟩
    unfold Key.writeToIt Key.writeWalk Its.scope Walk.scope
    revert h1
    cases k.writeTo P args Its.write ((0, output), w) <;> cases k.writeTo P args (Walk.write pointerStore) (((), output), w) <;> intro h1
    · exact congrArg _ h1.2.2
    · exact h1.elim
    · exact h1.elim
    · exact h1.elim
    · exact congrArg _ h1.2
    · exact h1.elim
    · exact h1.elim
    · exact h1.elim
    · exact congrArg _ h1
  · funext w
    have h : SimV (fun (st : Its σ) (st' : Walk Nat Unit (Mem × σ)) => st.1.1 = st'.1.1 ∧ st.2 = st'.2) (· = ·) (k.readFrom P Its.read) (k.readFrom P (Walk.read pointerNext)) := by
      have hx : SimV (fun (st : Its σ) (st' : Walk Nat Unit (Mem × σ)) => st.1.1 = st'.1.1 ∧ st.2 = st'.2) (· = ·) Its.read (Walk.read pointerNext) := by
        rintro ⟨⟨i, o⟩, mem, w⟩ ⟨⟨i', _⟩, w'⟩ ⟨h1, h2⟩
        dsimp only at h1 h2
        subst h1; subst h2
        unfold Walk.read Its.read pointerNext
        dsimp only
        cases mem.rd i with
        | ok m => exact ⟨rfl, rfl, rfl⟩
        | error g => exact rfl
      unfold Key.readFrom
      split
      · exact SimV.pure rfl
      · exact SimV.seq (SimV.readFrom hx _ _ _) fun _ => SimV.seq (SimV.liftEq _) fun _ => SimV.pure rfl
    have h1 := h ((input, 0), w) ((input, ()), w) ⟨rfl, rfl⟩
    unfold Key.readFromIt Key.readWalk Its.scope Walk.scope
    revert h1
    cases k.readFrom P Its.read ((input, 0), w) <;> cases k.readFrom P (Walk.read pointerNext) ((input, ()), w) <;> intro h1
    · obtain ⟨rfl, h2⟩ := h1
      exact congrArg _ h2.2
    · exact h1.elim
    · exact h1.elim
    · exact h1.elim
    · exact congrArg _ h1.2
    · exact h1.elim
    · exact h1.elim
    · exact h1.elim
    · exact congrArg _ h1

/-! ## Examples -/

/-- `std::istreambuf_iterator`: an iterator is only a reference to the stream, a list of bytes here; past the end, the behaviour is undefined. -/
def streamNext : InputIt (List Byte × List Byte) Unit := fun _ w =>
  match w.1 with
  | [] => .fault .oobRead
  | x :: l => .ret (x, ()) (l, w.2)

/-- `std::back_insert_iterator`. -/
def insertStore : OutputIt (List Byte × List Byte) Unit := fun _ x w => .ret () (w.1, w.2 ++ [x])

/-- The functors. -/
def streamSrc : Eff (List Byte × List Byte) Byte := fun w =>
  match w.1 with
  | [] => .fault .oobRead
  | x :: l => .ret x (l, w.2)

def insertDest (x : Byte) : Eff (List Byte × List Byte) Unit := fun w => .ret () (w.1, w.2 ++ [x])

theorem stream_of : StreamOf streamNext streamSrc := by
  rintro it ⟨l, out⟩
  unfold streamNext streamSrc
  cases l with
  | nil => exact rfl
  | cons x l => exact ⟨(), rfl⟩

theorem sink_of : SinkOf insertStore insertDest := fun _ _ _ => ⟨(), rfl⟩

/-- `add(a, b)`. -/
def plusRing : Keyring := ⟨.big, .twosComplement, [⟨1, [.uint 1, .uint 1], some (.uint 2)⟩]⟩

def plusDefs (σ : Type) : Nat → List Val → Eff σ (Option Val) := fun _ args w =>
  match args with
  | [.int a, .int b] => .ret (some (.int ((a + b) % 65536))) w
  | _ => .ret none w

/-- Two calls on the same iterators serve the two requests of the stream. -/
example (f : Features) (shared : Bool) (held : Unit × Unit) (r : List Byte) :
    Related (fun st st' => st.2.2 = st'.2) (· = ·)
      (walks pc streamNext insertStore [((), ()), ((), ())] (fresh pc plusRing f (Walk.hosted (plusDefs _)) (2 ^ 64 - 1) shared, (held, (0 :: 200 :: 100 :: 0 :: 1 :: 2 :: r, []))))
      (turns pc streamSrc insertDest 2 (fresh pc plusRing f (plusDefs _) (2 ^ 64 - 1) shared, (0 :: 200 :: 100 :: 0 :: 1 :: 2 :: r, []))) :=
  C114_stream_calls pc_valid (by refine ⟨by decide, ?_⟩; simp [plusRing, SigOk, Ty.WFs, Ty.WF, PackedAll, Packed]) (pc_supported _ _) stream_of sink_of _ _ _ held _

/-- What these calls leave in the output. -/
example (f : Features) (shared : Bool) :
    (match turns pc streamSrc insertDest 2 (fresh pc plusRing f (plusDefs _) (2 ^ 64 - 1) shared, ([0, 200, 100, 0, 1, 2, 9], [])) with
    | .ret sts (_, w) => some (sts, w)
    | _ => none) = some ([.resolved, .resolved], [9], [1, 44, 0, 3]) := by cases f <;> cases shared <;> decide +kernel

/-- `std::reverse_iterator` on an array: `C114_dispatcher` applies; the request is stored from the end. -/
def reverseNext : InputIt (Mem × List Byte) Nat := fun i w =>
  match i with
  | 0 => .fault .oobRead
  | i + 1 =>
    match w.1.rd i with
    | .ok x => .ret (x, i) w
    | .error f => .fault f

def pushStore : OutputIt (Mem × List Byte) Unit := fun _ x w => .ret () (w.1, w.2 ++ [x])

theorem plus_setting (f : Features) (σ : Type) : Setting pc plusRing f (plusDefs σ) where
  valid := pc_valid
  ring := by refine ⟨by decide, ?_⟩; simp [plusRing, SigOk, Ty.WFs, Ty.WF, PackedAll, Packed]
  sup := pc_supported _ _
  sizes := by simp [plusRing, Ty.sizeof, wireSize]
  typed := by
    intro d hd args w r w' hf h
    simp only [plusRing, List.mem_cons, List.not_mem_nil, or_false] at hd
    subst hd
    match args, hf with
    | [.int a, .int b], _ =>
      simp only [plusDefs] at h
      injection h with h1 _
      subst h1
      simp only [RetOk, Val.Fits]
      omega

theorem reverse_yields (out : List Byte) : ItYields reverseNext 4 ([9, 100, 200, 0], out) [0, 200, 100] 1 ([9, 100, 200, 0], out) :=
  .cons rfl (.cons rfl (.cons rfl (.nil _ _)))

example (f : Features) :
    (Dispatcher.make plusRing f (plusDefs _)).runWalk pc reverseNext pushStore 4 () ([9, 100, 200, 0], []) = .ret 0 ([9, 100, 200, 0], [1, 44]) := by
  have hS := plus_setting f (Mem × List Byte)
  rw [C114_dispatcher hS.valid hS.ring hS.sup hS.typed f (i := 0) (by decide) (args := [.int 200, .int 100]) (by simp [plusRing, Val.FitsAll, Val.Fits]) reverseNext pushStore (it := 4) (it' := 1) ()
    (w := ([9, 100, 200, 0], [])) (reverse_yields [])]
  rfl

/-- The same on a buffered dispatcher, which forgets the iterators passed before. -/
example (f : Features) (shared : Bool) (p : Nat × Unit) : ∃ b' p', Buf.processWalk pc reverseNext pushStore 4 () (fresh pc plusRing f (Walk.hosted (plusDefs _)) (2 ^ 64 - 1) shared, p, [9, 100, 200, 0], [])
    = .ret .resolved (b', p', [9, 100, 200, 0], [1, 44]) ∧ Pending b' [] ∧ Unread b' [] :=
  C114_buffered (f := f) (shared := shared) (plus_setting f (Mem × List Byte)) (p := p) ⟨_, _, .start⟩ (fresh_pending ..) (i := 0) (by decide) (args := [.int 200, .int 100])
    (by simp [plusRing, Val.FitsAll, Val.Fits]) (by cases shared <;> decide) reverseNext pushStore (it' := 1) () (reverse_yields [])

end Upd
