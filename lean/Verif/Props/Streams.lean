import Verif.Lemmas.Streams
import Verif.Props.Iterator

/-!
# C90: byte streams of any kind
-/

namespace Upd
open Spec TypeList

/-! ## Which streams are accepted, and how they are used -/

/-- C90, selection, `object(input, output)`. Each stream is a functor or an iterator, and not both. Each of the four combinations compiles, on objects which may be modified and, if the
`operator()` of the class is const, on const ones; the iterators are wrapped, the functors are used as they are. -/
theorem C90_selection (constOp constObj : Bool) (h : constObj = true → constOp = true) {i o : Cpp.StreamKind} (hi : i.functor = !i.iterator)
    (ho : o.functor = !o.iterator) :
    Cpp.processStreams constOp constObj i o = some (if i.iterator then .wrapped else .asIs, if o.iterator then .wrapped else .asIs) := by
  obtain ⟨_, i2⟩ := i
  obtain ⟨_, o2⟩ := o
  simp only at hi ho
  subst hi ho
  revert i2 o2 constObj constOp
  decide

example : Cpp.processStreams false false ⟨true, false⟩ ⟨false, true⟩ = some (.asIs, .wrapped) :=
  C90_selection false false (by simp) rfl rfl

/-- C90, selection, `object.read_from(stream)`, `object.write_to(stream)`, `object << stream` and `object >> stream`. -/
theorem C90_selection_one (constOp constObj : Bool) (h : constObj = true → constOp = true) {k : Cpp.StreamKind} (hk : k.functor = !k.iterator) :
    Cpp.oneStream constOp constObj k = some (if k.iterator then .wrapped else .asIs) ∧
      Cpp.operatorStream constOp constObj k = some (if k.iterator then .wrapped else .asIs) := by
  obtain ⟨_, k2⟩ := k
  simp only at hk
  subst hk
  revert k2 constObj constOp
  decide

example : Cpp.oneStream true true ⟨false, true⟩ = some .wrapped ∧ Cpp.operatorStream true true ⟨false, true⟩ = some .wrapped :=
  C90_selection_one true true (fun _ => rfl) rfl

/-- C90, selection: the streams which are accepted. A stream which is neither a functor nor an iterator is refused; so is any stream on a const object whose own member is not const. -/
theorem C90_refused (constOp constObj : Bool) (i o : Cpp.StreamKind)
    (h : (i.functor = false ∧ i.iterator = false) ∨ (o.functor = false ∧ o.iterator = false) ∨ (constObj = true ∧ constOp = false)) :
    Cpp.processStreams constOp constObj i o = none := by
  obtain ⟨i1, i2⟩ := i
  obtain ⟨o1, o2⟩ := o
  revert i1 i2 o1 o2 constObj constOp
  decide

theorem C90_refused_one (constOp constObj : Bool) (k : Cpp.StreamKind)
    (h : (k.functor = false ∧ k.iterator = false) ∨ (constObj = true ∧ constOp = false)) :
    Cpp.oneStream constOp constObj k = none ∧ Cpp.operatorStream constOp constObj k = none := by
  obtain ⟨k1, k2⟩ := k
  revert k1 k2 constObj constOp
  decide

example : Cpp.processStreams false true ⟨true, false⟩ ⟨false, true⟩ = none := C90_refused _ _ _ _ (Or.inr (Or.inr ⟨rfl, rfl⟩))

/-- C90, selection: what the statement leaves out. When each stream is a functor and one of them is an iterator too, the call is ambiguous on dispatchers and on const objects; on an action or a
key which is not const it compiles, and the stream is used as an iterator. The operators `<<` and `>>` are ambiguous whatever the object. -/
theorem C90_both (constOp constObj : Bool) {i o : Cpp.StreamKind} (hi : i.functor = true) (ho : o.functor = true) (hb : i.iterator = true ∨ o.iterator = true) :
    Cpp.processStreams constOp constObj i o =
      if constOp && !constObj then some (if i.iterator then .wrapped else .asIs, if o.iterator then .wrapped else .asIs) else none := by
  obtain ⟨_, i2⟩ := i
  obtain ⟨_, o2⟩ := o
  simp only at hi ho
  subst hi ho
  revert i2 o2 constObj constOp
  decide

theorem C90_both_one (constOp constObj : Bool) :
    Cpp.oneStream constOp constObj ⟨true, true⟩ = (if constOp && !constObj then some .wrapped else none) ∧ Cpp.operatorStream constOp constObj ⟨true, true⟩ = none := by
  revert constObj constOp
  decide

example : Cpp.processStreams false false ⟨true, true⟩ ⟨true, false⟩ = none := C90_both false false rfl rfl (Or.inl rfl)

example : Cpp.processStreams true false ⟨true, true⟩ ⟨true, false⟩ = some (.wrapped, .asIs) := C90_both true false rfl rfl (Or.inl rfl)

/-! ## What they are used for -/

variable {σ : Type} {P : Platform} {K : Keyring} {f : Features} {defs : Nat → List Val → Eff σ (Option Val)} {shared : Bool}

/-- C90, unbuffered dispatcher. The input, of any kind, gives a request. Then `dispatcher(input, output)` calls the callback once on the arguments and gives the response to the output, of any
kind; an exception of the callback or of the output reaches the caller. -/
theorem C90_dispatcher (hP : P.Valid) (hK : KeyringOk K) (hs : Supported P K.e K.s) (ht : ∀ d ∈ K.decls, WellTyped P K.s ⟨d.sig, defs d.name⟩) (f : Features)
    {n : Nat} (hn : n < K.decls.length) {args : List Val} (hf : Val.FitsAll (Safe P K.s) K.decls[n].sig.params args) {i : Input σ} {w w1 : σ}
    (hy : Gives i w (request K.e K.s K.idxBytes n K.decls[n].sig.params args) w1) (o : Output σ) :
    (Dispatcher.make K f defs).runOn P i o w = answer K.e K.s K.decls[n].sig.ret (defs K.decls[n].name args) o n w1 := by
  have hg := hK.2 K.decls[n] (List.getElem_mem _)
  have hib : n < 256 ^ K.idxBytes := Nat.lt_trans hn (idxBytes_pos hK.1).2
  obtain ⟨c, hb⟩ := yields_both o hy
  have h := run_request hP (D := Dispatcher.make K f defs) hs (idxBytes_pos hK.1).1 (i := n)
    (by show n < K.size; rw [K.size_eq hK.1]; exact hn) hib (make_acts hn) (makeAction_holds f K.e K.s _) hg (Both.world i o)
    (dest := Both.dest i o) hf hb
  show withBoth i o _ w = _
  unfold withBoth
  rw [h]
  exact respond_both hP hs hg (ht _ (List.getElem_mem hn)) hf n i o c w1

/-- C90, unbuffered dispatcher, unknown index: the output is given nothing. -/
theorem C90_unknown_index (hP : P.Valid) (hK : KeyringOk K) (hs : Supported P K.e K.s) (f : Features) {bs : List Byte} (hl : bs.length = K.idxBytes)
    (hi : K.decls.length ≤ wireValue K.e bs) {i : Input σ} {w w1 : σ} (hy : Gives i w bs w1) (o : Output σ) :
    (Dispatcher.make K f defs).runOn P i o w = .ret (wireValue K.e bs) w1 := by
  obtain ⟨c, hb⟩ := yields_both o hy
  have hg := getN_yields hb
  rw [hl] at hg
  show withBoth i o _ w = _
  unfold withBoth
  rw [run_eq hP (D := Dispatcher.make K f defs) hs (idxBytes_pos hK.1).1]
  rw [show (Dispatcher.make K f defs).idxBytes = K.idxBytes from rfl, Eff.bind_ret hg, if_neg]
  · rfl
  · show ¬ wireValue K.e bs < K.size
    rw [K.size_eq hK.1]
    omega

/-- C90, actions. -/
theorem C90_action (hP : P.Valid) {e : Endian} {s : Mode} (hs : Supported P e s) {cb : Callback σ} (hg : SigOk cb.sig) (hc : WellTyped P s cb) {a : Action σ}
    (ha : a = .stored e s cb ∨ a = .weak e s cb) {args : List Val} (hf : Val.FitsAll (Safe P s) cb.sig.params args) {i : Input σ} {w w1 : σ}
    (hy : Gives i w (wires e s cb.sig.params args) w1) (o : Output σ) : a.invokeOn P i o w = answer e s cb.sig.ret (cb.fn args) o () w1 := by
  obtain ⟨c, hb⟩ := yields_both o hy
  have h := call_args hP hs hg (Both.world i o) (dest := Both.dest i o) hf hb
  have h2 := respond_both hP hs hg hc hf () i o c w1
  simp only [bind_pure_unit] at h2
  rw [show a.invokeOn P i o w = withBoth i o (a.invoke P (Both.world i o) (Both.src i o) (Both.dest i o)) w from rfl]
  rw [Action.Holds.invoke (h := ha)]
  unfold withBoth
  rw [h]
  exact h2

/-- C90, actions given an input only: the callback is called, its result is dropped. -/
theorem C90_action_input (hP : P.Valid) {e : Endian} {s : Mode} (hs : Supported P e s) {cb : Callback σ} (hg : SigOk cb.sig) (hc : WellTyped P s cb) {a : Action σ}
    (ha : a = .stored e s cb ∨ a = .weak e s cb) {args : List Val} (hf : Val.FitsAll (Safe P s) cb.sig.params args) {i : Input σ} {w w1 : σ}
    (hy : Gives i w (wires e s cb.sig.params args) w1) :
    a.invokeInput P i w =
      match cb.fn args w1 with
      | .ret _ w2 => .ret () w2
      | .threw w2 => .threw w2
      | .fault f => .fault f := by
  unfold Action.invokeInput
  rw [C90_action hP hs hg hc ha hf hy]
  unfold answer
  have hp : ∀ (bs : List Byte) (w : σ), takes (.functor fun _ => pure ()) bs w = .ret () w := by
    intro bs
    induction bs with
    | nil => exact fun _ => rfl
    | cons b bs ih => exact fun w => (Eff.bind_ret (x := (pure () : Eff σ Unit)) (w := w) rfl).trans (ih w)
  cases h : cb.fn args w1 with
  | ret r w2 => rw [Eff.bind_ret h, Eff.bind_ret (hp _ _)]; rfl
  | threw w2 => rw [Eff.bind_threw h]
  | fault f => rw [Eff.bind_fault h]

/-- C90, keys, output. -/
theorem C90_key_write (hP : P.Valid) {k : Key} (hs : Supported P k.e k.s) (hk : 1 ≤ k.idxBytes) (hi : k.index < 256 ^ k.idxBytes) (hg : SigOk k.sig)
    {args : List Val} (hf : Val.FitsAll (Safe P k.s) k.sig.params args) (o : Output σ) :
    k.writeOn P args o = takes o (request k.e k.s k.idxBytes k.index k.sig.params args) := by
  show withCopy o.copy (k.writeTo P args o.call) = _
  rw [C29_request_format hP hs hk hi hg hf, takes_call]

/-- C90, keys, input. -/
theorem C90_key_read (hP : P.Valid) {k : Key} (hs : Supported P k.e k.s) (hg : SigOk k.sig) {r : Option Val} (hr : RetOk P k.s k.sig.ret r) {i : Input σ} {w w1 : σ}
    (hy : Gives i w (response k.e k.s k.sig.ret r) w1) : k.readOn P i w = .ret r w1 := by
  obtain ⟨c, hb⟩ := gives_call hy
  show withCopy i.copy (k.readFrom P i.call) w = _
  unfold withCopy
  rw [C31_read_value hP hs hg hr _ hb]

/-- C90, buffered dispatcher, between two packets. -/
theorem C90_buffered (h : Setting P K f defs) {i : Input σ} {o : Output σ} {b : Buf (Both i o)} {w w1 : σ} {c : i.Copy} {d : o.Copy}
    (hr : Reachable P K f (Both.hosted i o defs) shared (b, c, d, w)) (hp : Pending b []) {n : Nat} (hn : n < K.decls.length) {args : List Val}
    (hf : Val.FitsAll (Safe P K.s) K.decls[n].sig.params args) (hroom : retSize K.decls[n].sig.ret ≤ outRoom K shared)
    (hy : Gives i w (request K.e K.s K.idxBytes n K.decls[n].sig.params args) w1) :
    match answer K.e K.s K.decls[n].sig.ret (defs K.decls[n].name args) o () w1 with
    | .ret _ w' => ∃ b' c' d', Buf.processOn P i o (b, c, d, w) = .ret .resolved (b', c', d', w') ∧ Pending b' [] ∧ Unread b' []
    | .threw w' => ∃ b' c' d', Buf.processOn P i o (b, c, d, w) = .threw (b', c', d', w')
    | .fault f => Buf.processOn P i o (b, c, d, w) = .fault f := by
  have hg := h.ring.2 K.decls[n] (List.getElem_mem _)
  have hib : n < 256 ^ K.idxBytes := Nat.lt_trans hn (idxBytes_pos h.ring.1).2
  obtain ⟨c1, hb⟩ := yields_both o hy
  have h1 := run_request h.valid (D := Dispatcher.make K f (Both.hosted i o defs)) h.sup (idxBytes_pos h.ring.1).1 (i := n)
    (by show n < K.size; rw [K.size_eq h.ring.1]; exact hn) hib (make_acts hn) (makeAction_holds f K.e K.s _) hg (Lens.whole (Both i o))
    (dest := Both.dest i o) hf hb
  rw [zoom_whole] at h1
  have h2 := respond_both h.valid h.sup hg (h.typed _ (List.getElem_mem hn)) hf n i o c1 w1
  have h3 := C48_request (both_hosted_setting h i o) (reachable_world hr (i.copy, o.copy, w)) hp hn hf hroom hb (Both.dest i o)
  have h4 : ∀ w, answer K.e K.s K.decls[n].sig.ret (defs K.decls[n].name args) o n w =
      match answer K.e K.s K.decls[n].sig.ret (defs K.decls[n].name args) o () w with
      | .ret _ w' => .ret n w'
      | .threw w' => .threw w'
      | .fault f => .fault f := by
    intro w
    unfold answer
    cases hd : defs K.decls[n].name args w with
    | fault e => rw [Eff.bind_fault hd, Eff.bind_fault hd]
    | threw w' => rw [Eff.bind_threw hd, Eff.bind_threw hd]
    | ret r w' =>
      rw [Eff.bind_ret hd, Eff.bind_ret hd]
      cases ht : takes o (response K.e K.s K.decls[n].sig.ret r) w' with
      | fault e => rw [Eff.bind_fault ht, Eff.bind_fault ht]
      | threw w' => rw [Eff.bind_threw ht, Eff.bind_threw ht]
      | ret _ w' => rw [Eff.bind_ret ht, Eff.bind_ret ht]; rfl
  rw [h4] at h2
  dsimp only at h2
  generalize hX : (Eff.zoom (Both.world i o) (defs K.decls[n].name args) >>= fun r => respond P K.e K.s K.decls[n].sig.ret r (Both.dest i o) >>= fun _ => pure n)
    (c1, o.copy, w1) = X at h2
  have h1 := h1.trans hX
  rw [h1] at h3
  cases X with
  | fault e =>
    cases ha : answer K.e K.s K.decls[n].sig.ret (defs K.decls[n].name args) o () w1 with
    | fault e' => rw [ha] at h2; injection h2 with h2; subst h2; exact h3
    | threw w' => rw [ha] at h2; cases h2
    | ret _ w' => rw [ha] at h2; cases h2
  | threw st =>
    obtain ⟨c', d', w2⟩ := st
    cases ha : answer K.e K.s K.decls[n].sig.ret (defs K.decls[n].name args) o () w1 with
    | fault e' => rw [ha] at h2; cases h2
    | threw w' =>
      rw [ha] at h2
      injection h2 with h2
      subst h2
      obtain ⟨b', h3⟩ := h3
      exact ⟨b', c', d', h3⟩
    | ret _ w' => rw [ha] at h2; cases h2
  | ret a st =>
    obtain ⟨c', d', w2⟩ := st
    cases ha : answer K.e K.s K.decls[n].sig.ret (defs K.decls[n].name args) o () w1 with
    | fault e' => rw [ha] at h2; cases h2
    | threw w' => rw [ha] at h2; cases h2
    | ret _ w' =>
      rw [ha] at h2
      injection h2 with _ h2
      subst h2
      obtain ⟨b', h3, h5⟩ := h3
      exact ⟨b', c', d', h3, h5⟩

/-- C90, `read_from(input)` of a buffered dispatcher, between two packets. -/
theorem C90_buffered_read (h : Setting P K f defs) {i : Input σ} {o : Output σ} {b : Buf (Both i o)} {w w1 : σ} {c : i.Copy} {d : o.Copy}
    (hr : Reachable P K f (Both.hosted i o defs) shared (b, c, d, w)) (hp : Pending b []) {n : Nat} (hn : n < K.decls.length) {args : List Val}
    (hf : Val.FitsAll (Safe P K.s) K.decls[n].sig.params args) (hroom : retSize K.decls[n].sig.ret ≤ outRoom K shared)
    (hy : Gives i w (request K.e K.s K.idxBytes n K.decls[n].sig.params args) w1) :
    match defs K.decls[n].name args w1 with
    | .ret r w' => ∃ b' c' d', Buf.readOn P i o (b, c, d, w) = .ret .resolved (b', c', d', w') ∧ Pending b' [] ∧
        Unread b' (response K.e K.s K.decls[n].sig.ret r)
    | .threw w' => ∃ b' c' d', Buf.readOn P i o (b, c, d, w) = .threw (b', c', d', w')
    | .fault f => Buf.readOn P i o (b, c, d, w) = .fault f := by
  obtain ⟨c1, hb⟩ := yields_both o hy
  have h1 := C44_request (both_hosted_setting h i o) (reachable_world hr (i.copy, o.copy, w)) hp hn hf hroom hb
  cases hd : defs K.decls[n].name args w1 with
  | fault e =>
    have hd' : Both.hosted i o defs K.decls[n].name args (c1, o.copy, w1) = .fault e := zoom_fault (L := Both.world i o) hd
    rw [hd'] at h1
    exact h1
  | threw st =>
    have hd' : Both.hosted i o defs K.decls[n].name args (c1, o.copy, w1) = .threw (c1, o.copy, st) := zoom_threw (L := Both.world i o) hd
    rw [hd'] at h1
    obtain ⟨b', h2⟩ := h1
    exact ⟨b', _, _, h2⟩
  | ret r st =>
    have hd' : Both.hosted i o defs K.decls[n].name args (c1, o.copy, w1) = .ret r (c1, o.copy, st) := zoom_ret (L := Both.world i o) hd
    rw [hd'] at h1
    obtain ⟨b', h2, h3, h4⟩ := h1
    exact ⟨b', _, _, h2, h3, h4⟩

/-- C90, `write_to(output)` of a buffered dispatcher which holds the bytes `out`. -/
theorem C90_buffered_write {i : Input σ} {o : Output σ} {b : Buf (Both i o)} {out : List Byte} (hu : Unread b out) (c : i.Copy) (d : o.Copy) {w w' : σ}
    (ht : takes o out w = .ret () w') : ∃ b' c' d', Buf.writeOn i o (b, c, d, w) = .ret () (b', c', d', w') ∧ Unread b' [] := by
  have h1 := writeTo_putAll (dest := Both.dest i o) hu (i.copy, o.copy, w)
  rw [putAll_both] at h1
  rw [← takes_call] at ht
  unfold withCopy at ht
  cases hq : putAll o.call out (o.copy, w) with
  | ret u st =>
    rw [hq] at h1 ht
    injection ht with _ ht
    subst ht
    exact ⟨_, _, _, h1, unread_drained hu⟩
  | threw st => rw [hq] at ht; cases ht
  | fault e => rw [hq] at ht; cases ht

/-! ## Streams used several times: iterators are passed by value -/

/-- C90, output through a back inserter: the messages follow each other in the container. -/
theorem C90_append (hP : P.Valid) : ∀ {ms : List (Key × List Val)}, (∀ m ∈ ms, Sendable P m) → ∀ (c : List Byte) (w : σ),
    writeEach P .backInserter ms (c, w) = .ret () (c ++ (ms.map message).flatten, w)
  | [], _, c, w => by
    rw [List.map_nil, List.flatten_nil, List.append_nil]
    rfl
  | (k, args) :: ms, h, c, w => by
    obtain ⟨h1, h2, h3, h4, h5⟩ := h _ (List.mem_cons_self ..)
    show (k.writeOn P args .backInserter >>= fun _ => writeEach P .backInserter ms) (c, w) = _
    rw [C90_key_write hP h1 h2 h3 h4 h5, Eff.bind_ret (takes_backInserter _ _ _), C90_append hP (fun m hm => h m (List.mem_cons_of_mem _ hm))]
    rw [List.map_cons, List.flatten_cons, List.append_assoc]
    rfl

/-- C90, input out of a shared queue: successive calls give the successive values. -/
theorem C90_queue (hP : P.Valid) : ∀ {rs : List (Key × Option Val)}, (∀ m ∈ rs, Supported P m.1.e m.1.s ∧ SigOk m.1.sig ∧ RetOk P m.1.s m.1.sig.ret m.2) →
    ∀ (rest : List Byte) (w : σ), readEach P .queue (rs.map Prod.fst) ((rs.map fun m => response m.1.e m.1.s m.1.sig.ret m.2).flatten ++ rest, w) =
      .ret (rs.map Prod.snd) (rest, w)
  | [], _, _, _ => rfl
  | (k, r) :: rs, h, rest, w => by
    obtain ⟨h1, h2, h3⟩ := h _ (List.mem_cons_self ..)
    show (k.readOn P .queue >>= fun r => readEach P .queue (rs.map Prod.fst) >>= fun rs => pure (r :: rs)) _ = _
    rw [List.map_cons, List.flatten_cons, List.append_assoc, Eff.bind_ret (C90_key_read hP h1 h2 h3 (gives_queue _ _ _)),
      Eff.bind_ret (C90_queue hP (fun m hm => h m (List.mem_cons_of_mem _ hm)) rest w)]
    rfl

/-- C90, output through a pointer, which is passed by value: each message is stored at the same position, over the one before. -/
theorem C90_overwrite (hP : P.Valid) : ∀ {ms : List (Key × List Val)}, (∀ m ∈ ms, Sendable P m) → ∀ {mem : Mem} {pos : Nat},
    (∀ m ∈ ms, pos + (message m).length ≤ mem.length) → ∀ (w : σ),
    writeEach P (.pointer pos) ms (mem, w) = .ret () (ms.foldl (fun mem m => splice mem pos (message m)) mem, w)
  | [], _, _, _, _, _ => rfl
  | (k, args) :: ms, h, mem, pos, hb, w => by
    obtain ⟨h1, h2, h3, h4, h5⟩ := h _ (List.mem_cons_self ..)
    have hb0 := hb _ (List.mem_cons_self ..)
    show (k.writeOn P args (.pointer pos) >>= fun _ => writeEach P (.pointer pos) ms) (mem, w) = _
    have ht : takes (.pointer pos) (request k.e k.s k.idxBytes k.index k.sig.params args) (mem, w) = .ret () (splice mem pos (message (k, args)), w) := by
      rw [takes_pointer _ _ _ _ (by omega)]
      exact if_pos hb0
    rw [C90_key_write hP h1 h2 h3 h4 h5, Eff.bind_ret ht]
    refine C90_overwrite hP (fun m hm => h m (List.mem_cons_of_mem _ hm)) ?_ w
    intro m hm
    rw [splice_length hb0]
    exact hb m (List.mem_cons_of_mem _ hm)

/-- C90, input from a pointer, which is passed by value: each call reads at the same position. -/
theorem C90_reread (hP : P.Valid) {k : Key} (hs : Supported P k.e k.s) (hg : SigOk k.sig) {r : Option Val} (hr : RetOk P k.s k.sig.ret r) {mem : Mem} {pos : Nat}
    (hm : slice mem pos (response k.e k.s k.sig.ret r).length = response k.e k.s k.sig.ret r) (w : σ) :
    ∀ n, readEach P (.pointer pos) (List.replicate n k) (mem, w) = .ret (List.replicate n r) (mem, w)
  | 0 => rfl
  | n + 1 => by
    show (k.readOn P (.pointer pos) >>= fun r => readEach P (.pointer pos) (List.replicate n k) >>= fun rs => pure (r :: rs)) _ = _
    rw [Eff.bind_ret (C90_key_read hP hs hg hr (gives_pointer _ _ _ _ hm)), Eff.bind_ret (C90_reread hP hs hg hr hm w n)]
    rfl

/-- C90, pointers: the general notion of stream agrees with the one of C64. -/
theorem C90_pointer {defs : Nat → List Val → Eff (Mem × σ) (Option Val)} (hP : P.Valid) (hK : KeyringOk K) (hs : Supported P K.e K.s)
    (ht : ∀ d ∈ K.decls, WellTyped P K.s ⟨d.sig, defs d.name⟩) (f : Features) {n : Nat} (hn : n < K.decls.length) {args : List Val}
    (hf : Val.FitsAll (Safe P K.s) K.decls[n].sig.params args) {mem : Mem} {input output : Nat} {w : σ}
    (hm : slice mem input (request K.e K.s K.idxBytes n K.decls[n].sig.params args).length = request K.e K.s K.idxBytes n K.decls[n].sig.params args)
    (ho : ∀ r mem' w', defs K.decls[n].name args (mem, w) = .ret r (mem', w') → output ≤ mem'.length) :
    (Dispatcher.make K f defs).runOn P (.pointer input) (.pointer output) (mem, w) = (Dispatcher.make K f defs).runIt P input output (mem, w) := by
  rw [C90_dispatcher hP hK hs ht f hn hf (gives_pointer _ _ _ _ hm), C64_dispatcher hP hK hs ht f hn hf hm ho]
  unfold answer
  cases hd : defs K.decls[n].name args (mem, w) with
  | fault e => rw [Eff.bind_fault hd]
  | threw w' => rw [Eff.bind_threw hd]
  | ret r w' =>
    obtain ⟨mem', w'⟩ := w'
    have hq := takes_pointer (response K.e K.s K.decls[n].sig.ret r) mem' output w' (ho _ _ _ hd)
    rw [Eff.bind_ret hd]
    by_cases hb : output + (response K.e K.s K.decls[n].sig.ret r).length ≤ mem'.length
    · rw [if_pos hb] at hq
      simp only [if_pos hb]
      rw [Eff.bind_ret hq]
      rfl
    · rw [if_neg hb] at hq
      simp only [if_neg hb]
      rw [Eff.bind_fault hq]

/-! ## Examples -/

/-- The request comes from a functor which takes the bytes at the end of the array, the response goes through a pointer. -/
def popBack : Eff (Mem × List (List Val)) Byte := fun w =>
  match w.1.getLast? with
  | some x => .ret x (w.1.dropLast, w.2)
  | none => .fault .starved

example : (Dispatcher.make ledRing .any itDefs).runOn pc (.functor popBack) (.pointer 1) ([9#8, 9#8, 9#8, 9#8, 3#8, 2#8, 1#8, 0#8], []) =
    .ret 0 ([9#8, 0x04#8, 0x02#8, 9#8], [[.int 1, .int 0x201, .int 3]]) := by
  refine (C90_dispatcher pc_valid ledRing_ok (pc_supported _ _) it_typed .any (n := 0) (by decide) (args := [.int 0x201, .int 3])
    (by simp [ledRing, Val.FitsAll, Val.Fits]) (i := .functor popBack) (w1 := ([9#8, 9#8, 9#8, 9#8], []))
    (.cons rfl (.cons rfl (.cons rfl (.cons rfl (.nil _))))) _).trans rfl

/-- The response follows what the container holds. -/
example : (Dispatcher.make ledRing .any itDefs).runOn pc .queue .backInserter ([0#8, 1#8, 2#8, 3#8, 0xaa#8], []) =
    .ret 0 ([0xaa#8, 0x04#8, 0x02#8], [[.int 1, .int 0x201, .int 3]]) := by
  refine (C90_dispatcher pc_valid ledRing_ok (pc_supported _ _) it_typed .any (n := 0) (by decide) (args := [.int 0x201, .int 3])
    (by simp [ledRing, Val.FitsAll, Val.Fits]) (i := .queue) (w1 := ([0xaa#8], [])) (gives_queue [0#8, 1#8, 2#8, 3#8] [0xaa#8] []) _).trans rfl

example (o : Output (List Byte × List (List Val))) : (Dispatcher.make ledRing .any itDefs).runOn pc .queue o ([77#8, 1#8], []) = .ret 77 ([1#8], []) :=
  C90_unknown_index pc_valid ledRing_ok (pc_supported _ _) .any (bs := [77#8]) rfl (by decide) (gives_queue [77#8] [1#8] []) o

example : (Action.weak .little .twosComplement ⟨⟨[.uint 2, .uint 1], some (.uint 2)⟩, itDefs 1⟩).invokeOn pc .queue .backInserter ([1#8, 2#8, 3#8], []) =
    .ret () ([0x04#8, 0x02#8], [[.int 1, .int 0x201, .int 3]]) := by
  refine (C90_action (cb := ⟨⟨[.uint 2, .uint 1], some (.uint 2)⟩, itDefs 1⟩) pc_valid (pc_supported _ _)
    (by simp [SigOk, Ty.WFs, Ty.WF, PackedAll, Packed]) (it_typed _ (List.mem_cons_self ..)) (Or.inr rfl) (args := [.int 0x201, .int 3])
    (by simp [Val.FitsAll, Val.Fits]) (gives_queue [1#8, 2#8, 3#8] [] []) _).trans rfl

example : (Action.stored .little .twosComplement ⟨⟨[.uint 2, .uint 1], some (.uint 2)⟩, itDefs 1⟩).invokeInput pc .queue ([1#8, 2#8, 3#8, 4#8], []) =
    .ret () ([4#8], [[.int 1, .int 0x201, .int 3]]) := by
  refine (C90_action_input (cb := ⟨⟨[.uint 2, .uint 1], some (.uint 2)⟩, itDefs 1⟩) pc_valid (pc_supported _ _)
    (by simp [SigOk, Ty.WFs, Ty.WF, PackedAll, Packed]) (it_typed _ (List.mem_cons_self ..)) (Or.inl rfl) (args := [.int 0x201, .int 3])
    (by simp [Val.FitsAll, Val.Fits]) (gives_queue [1#8, 2#8, 3#8] [4#8] [])).trans rfl

example (f : Features) : ∃ b' c' d', Buf.processOn pc .queue .backInserter
      (fresh pc ledRing f (Both.hosted .queue .backInserter itDefs) (2 ^ 64 - 1) true, (), (), [0#8, 1#8, 2#8, 3#8, 9#8], []) =
    .ret .resolved (b', c', d', [9#8, 0x04#8, 0x02#8], [[.int 1, .int 0x201, .int 3]]) ∧ Pending b' [] ∧ Unread b' [] :=
  C90_buffered (shared := true) (i := .queue) (o := .backInserter) (it_setting f) ⟨_, _, .start⟩ (fresh_pending ..) (n := 0) (by decide) (args := [.int 0x201, .int 3])
    (by simp [ledRing, Val.FitsAll, Val.Fits]) (by decide) (gives_queue [0#8, 1#8, 2#8, 3#8] [9#8] [])

example (f : Features) : ∃ b' c' d', Buf.readOn pc .queue .backInserter
      (fresh pc ledRing f (Both.hosted .queue .backInserter itDefs) (2 ^ 64 - 1) true, (), (), [0#8, 1#8, 2#8, 3#8, 9#8], []) =
    .ret .resolved (b', c', d', [9#8], [[.int 1, .int 0x201, .int 3]]) ∧ Pending b' [] ∧ Unread b' [0x04#8, 0x02#8] :=
  C90_buffered_read (shared := true) (i := .queue) (o := .backInserter) (it_setting f) ⟨_, _, .start⟩ (fresh_pending ..) (n := 0) (by decide) (args := [.int 0x201, .int 3])
    (by simp [ledRing, Val.FitsAll, Val.Fits]) (by decide) (gives_queue [0#8, 1#8, 2#8, 3#8] [9#8] [])

example (b : Buf (Both (σ := List Byte × Unit) .queue .backInserter)) (h : Unread b [4#8, 2#8]) :
    ∃ b' c' d', Buf.writeOn .queue .backInserter (b, (), (), [9#8], ()) = .ret () (b', c', d', [9#8, 4#8, 2#8], ()) ∧ Unread b' [] :=
  C90_buffered_write h _ _ (takes_backInserter [4#8, 2#8] [9#8] ())

/-- A key of `ledRing`. -/
def lampKey : Key := ⟨.little, .twosComplement, 1, 0, [.uint 2, .uint 1], some (.uint 2)⟩

theorem lampKey_sig : SigOk lampKey.sig := by simp [lampKey, SigOk, Ty.WFs, Ty.WF, PackedAll, Packed]

theorem lamp_sendable {x y : Nat} (hx : x < 65536) (hy : y < 256) : Sendable pc (lampKey, [.int x, .int y]) :=
  ⟨pc_supported _ _, Nat.le_refl 1, (by decide : (0 : Nat) < 256 ^ 1), lampKey_sig, by simp [lampKey, Val.FitsAll, Val.Fits]; omega⟩

example : writeEach pc .backInserter [(lampKey, [.int 0x201, .int 3]), (lampKey, [.int 0x504, .int 6])] ([7#8], ()) =
    .ret () ([7#8, 0#8, 1#8, 2#8, 3#8, 0#8, 4#8, 5#8, 6#8], ()) :=
  C90_append pc_valid (ms := [(lampKey, [.int 0x201, .int 3]), (lampKey, [.int 0x504, .int 6])])
    (by simp only [List.mem_cons, List.not_mem_nil, or_false, forall_eq_or_imp, forall_eq]
        exact ⟨lamp_sendable (x := 0x201) (y := 3) (by decide) (by decide), lamp_sendable (x := 0x504) (y := 6) (by decide) (by decide)⟩) _ _

example : writeEach pc (.pointer 1) [(lampKey, [.int 0x201, .int 3]), (lampKey, [.int 0x504, .int 6])] ([7#8, 7#8, 7#8, 7#8, 7#8, 7#8], ()) =
    .ret () ([7#8, 0#8, 4#8, 5#8, 6#8, 7#8], ()) :=
  C90_overwrite pc_valid (ms := [(lampKey, [.int 0x201, .int 3]), (lampKey, [.int 0x504, .int 6])])
    (by simp only [List.mem_cons, List.not_mem_nil, or_false, forall_eq_or_imp, forall_eq]
        exact ⟨lamp_sendable (x := 0x201) (y := 3) (by decide) (by decide), lamp_sendable (x := 0x504) (y := 6) (by decide) (by decide)⟩)
    (by simp only [List.mem_cons, List.not_mem_nil, or_false, forall_eq_or_imp, forall_eq]; decide) _

example : readEach pc .queue [lampKey, lampKey] ([0x04#8, 0x02#8, 0x05#8, 0x02#8, 9#8], ()) = .ret [some (.int 0x204), some (.int 0x205)] ([9#8], ()) :=
  C90_queue pc_valid (rs := [(lampKey, some (.int 0x204)), (lampKey, some (.int 0x205))])
    (by simp only [List.mem_cons, List.not_mem_nil, or_false, forall_eq_or_imp, forall_eq]
        exact ⟨⟨pc_supported _ _, lampKey_sig, by simp [lampKey, RetOk, Val.Fits]⟩, pc_supported _ _, lampKey_sig, by simp [lampKey, RetOk, Val.Fits]⟩) [9#8] ()

example : readEach pc (.pointer 1) (List.replicate 3 lampKey) ([9#8, 0x04#8, 0x02#8], ()) = .ret (List.replicate 3 (some (.int 0x204))) ([9#8, 0x04#8, 0x02#8], ()) :=
  C90_reread pc_valid (pc_supported _ _) lampKey_sig (by simp [lampKey, RetOk, Val.Fits]) (by decide) () 3

/-! ## Further uses -/

/-- An `int`; a constant output stream. -/
example : Cpp.oneStream true false ⟨false, false⟩ = none ∧ Cpp.operatorStream false true ⟨true, false⟩ = none :=
  ⟨(C90_refused_one true false ⟨false, false⟩ (.inl ⟨rfl, rfl⟩)).1, (C90_refused_one false true ⟨true, false⟩ (.inr ⟨rfl, rfl⟩)).2⟩

example : Cpp.oneStream true false ⟨true, true⟩ = some .wrapped := (C90_both_one true false).1

example (w : List Byte × Unit) : lampKey.writeOn pc [.int 0x201, .int 3] .backInserter w = takes .backInserter [0#8, 1#8, 2#8, 3#8] w :=
  congrFun (C90_key_write pc_valid (pc_supported _ _) (Nat.le_refl 1) (by decide : (0 : Nat) < 256 ^ 1) lampKey_sig
    (by simp [lampKey, Val.FitsAll, Val.Fits]) .backInserter) w

example : lampKey.readOn pc .queue ([4#8, 2#8, 9#8], ()) = .ret (some (.int 0x204)) ([9#8], ()) :=
  C90_key_read pc_valid (pc_supported _ _) lampKey_sig (r := some (.int 0x204)) (by simp [lampKey, RetOk, Val.Fits]) (gives_queue [4#8, 2#8] [9#8] ())

example : (Dispatcher.make ledRing .any itDefs).runOn pc (.pointer 1) (.pointer 3) ([9#8, 0#8, 1#8, 2#8, 3#8, 9#8], []) =
    (Dispatcher.make ledRing .any itDefs).runIt pc 1 3 ([9#8, 0#8, 1#8, 2#8, 3#8, 9#8], []) :=
  C90_pointer pc_valid ledRing_ok (pc_supported _ _) it_typed .any (n := 0) (by decide) (args := [.int 0x201, .int 3])
    (by simp [ledRing, Val.FitsAll, Val.Fits]) (by decide)
    (by intro r mem' w' h; injection h with _ h; injection h with h _; rw [← h]; decide)

end Upd
