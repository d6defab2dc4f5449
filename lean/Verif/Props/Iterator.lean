import Verif.Lemmas.Iterator
import Verif.Props.Buffered
import Verif.Props.Dispatcher

/-!
# C64: streams given as iterators
-/

namespace Upd
open Spec TypeList

variable {σ : Type} {P : Platform} {K : Keyring} {f : Features} {defs : Nat → List Val → Eff (Mem × σ) (Option Val)} {shared : Bool}

/-- C64, unbuffered dispatcher. The array holds a request at `input`. The callback is called once on the arguments; then the response is stored
at `output`, whatever the positions of `input` and `output` (the request may be overwritten), and no other byte of the array is modified, except
by the callback. If the callback throws, the array is as the callback left it. The only possible fault, besides those of the
callback, is a response which goes past the end of the array. -/
theorem C64_dispatcher (hP : P.Valid) (hK : KeyringOk K) (hs : Supported P K.e K.s)
    (ht : ∀ d ∈ K.decls, WellTyped P K.s ⟨d.sig, defs d.name⟩) (f : Features) {i : Nat} (hi : i < K.decls.length) {args : List Val}
    (hf : Val.FitsAll (Safe P K.s) K.decls[i].sig.params args) {mem : Mem} {input output : Nat} {w : σ}
    (hm : slice mem input (request K.e K.s K.idxBytes i K.decls[i].sig.params args).length =
      request K.e K.s K.idxBytes i K.decls[i].sig.params args)
    (ho : ∀ r mem' w', defs K.decls[i].name args (mem, w) = .ret r (mem', w') → output ≤ mem'.length) :
    (Dispatcher.make K f defs).runIt P input output (mem, w) =
      match defs K.decls[i].name args (mem, w) with
      | .ret r (mem', w') =>
        if output + (response K.e K.s K.decls[i].sig.ret r).length ≤ mem'.length then
          .ret i (splice mem' output (response K.e K.s K.decls[i].sig.ret r), w')
        else .fault .oobWrite
      | .threw st => .threw st
      | .fault f => .fault f := by
  have hg := hK.2 K.decls[i] (List.getElem_mem _)
  have hib : i < 256 ^ K.idxBytes := Nat.lt_trans hi (idxBytes_pos hK.1).2
  have h := run_request hP (D := Dispatcher.make K f defs) hs (idxBytes_pos hK.1).1 (i := i)
    (by show i < K.size; rw [K.size_eq hK.1]; exact hi) hib (make_acts hi) (makeAction_holds f K.e K.s _) hg Its.world
    (dest := Its.write) hf (yields_its _ mem input output w hm)
  have h2 := its_respond hP hs hg (ht _ (List.getElem_mem hi)) hf i
    (input + (request K.e K.s K.idxBytes i K.decls[i].sig.params args).length) output mem w ho
  dsimp only at h2
  have h := h.trans h2
  show Its.scope _ _ _ _ = _
  unfold Its.scope
  rw [h]
  cases defs K.decls[i].name args (mem, w) with
  | fault e => rfl
  | threw w' => rfl
  | ret r w' =>
    obtain ⟨mem', w'⟩ := w'
    by_cases hb : output + (response K.e K.s K.decls[i].sig.ret r).length ≤ mem'.length
    · simp only [if_pos hb]
    · simp only [if_neg hb]

/-- C64, unbuffered dispatcher, unknown index: nothing is modified. -/
theorem C64_unknown_index (hP : P.Valid) (hK : KeyringOk K) (hs : Supported P K.e K.s) (f : Features) {mem : Mem} {input : Nat} (output : Nat)
    {bs : List Byte} (hl : bs.length = K.idxBytes) (hm : slice mem input K.idxBytes = bs) (hi : K.decls.length ≤ wireValue K.e bs) (w : σ) :
    (Dispatcher.make K f defs).runIt P input output (mem, w) = .ret (wireValue K.e bs) (mem, w) := by
  have hg := getN_yields (yields_its bs mem input output w (by rw [hl]; exact hm))
  rw [hl] at hg
  show Its.scope _ _ _ _ = _
  unfold Its.scope
  rw [run_eq hP (D := Dispatcher.make K f defs) hs (idxBytes_pos hK.1).1]
  rw [show (Dispatcher.make K f defs).idxBytes = K.idxBytes from rfl, Eff.bind_ret hg, if_neg]
  · rfl
  · show ¬ wireValue K.e bs < K.size
    rw [K.size_eq hK.1]
    omega

/-- C64, actions: as for dispatchers, without the index. -/
theorem C64_action (hP : P.Valid) {e : Endian} {s : Mode} (hs : Supported P e s) {cb : Callback (Mem × σ)} (hg : SigOk cb.sig)
    (hc : WellTyped P s cb) {a : Action (Mem × σ)} (ha : a = .stored e s cb ∨ a = .weak e s cb) {args : List Val}
    (hf : Val.FitsAll (Safe P s) cb.sig.params args) {mem : Mem} {input output : Nat} {w : σ}
    (hm : slice mem input (wires e s cb.sig.params args).length = wires e s cb.sig.params args)
    (ho : ∀ r mem' w', cb.fn args (mem, w) = .ret r (mem', w') → output ≤ mem'.length) :
    a.invokeIt P input output (mem, w) =
      match cb.fn args (mem, w) with
      | .ret r (mem', w') =>
        if output + (response e s cb.sig.ret r).length ≤ mem'.length then .ret () (splice mem' output (response e s cb.sig.ret r), w')
        else .fault .oobWrite
      | .threw st => .threw st
      | .fault f => .fault f := by
  have h2 := its_respond hP hs hg hc hf () (input + (wires e s cb.sig.params args).length) output mem w ho
  simp only [bind_pure_unit] at h2
  show Its.scope _ _ _ _ = _
  unfold Its.scope
  rw [Action.Holds.invoke ha P, call_args hP hs hg Its.world (dest := Its.write) hf (yields_its _ mem input output w hm), h2]
  cases cb.fn args (mem, w) with
  | fault e => rfl
  | threw w' => rfl
  | ret r w' =>
    obtain ⟨mem', w'⟩ := w'
    by_cases hb : output + (response e s cb.sig.ret r).length ≤ mem'.length
    · simp only [if_pos hb]
    · simp only [if_neg hb]

/-- C64, keys: `key(args...).write_to(it)` stores the request, and nothing else. -/
theorem C64_key_write (hP : P.Valid) {k : Key} (hs : Supported P k.e k.s) (hk : 1 ≤ k.idxBytes) (hi : k.index < 256 ^ k.idxBytes)
    (hg : SigOk k.sig) {args : List Val} (hf : Val.FitsAll (Safe P k.s) k.sig.params args) {mem : Mem} {output : Nat}
    (ho : output + (request k.e k.s k.idxBytes k.index k.sig.params args).length ≤ mem.length) (w : σ) :
    k.writeToIt P args output (mem, w) = .ret () (splice mem output (request k.e k.s k.idxBytes k.index k.sig.params args), w) := by
  show Its.scope _ _ _ _ = _
  unfold Its.scope
  rw [C29_request_format hP hs hk hi hg hf, putAll_its _ _ _ _ _ (by omega), if_pos ho]

/-- C64, keys: `key.read_from(it)` gives the value whose encoding is in the array. -/
theorem C64_key_read (hP : P.Valid) {k : Key} (hs : Supported P k.e k.s) (hg : SigOk k.sig) {r : Option Val} (hr : RetOk P k.s k.sig.ret r)
    {mem : Mem} {input : Nat} (hm : slice mem input (response k.e k.s k.sig.ret r).length = response k.e k.s k.sig.ret r) (w : σ) :
    k.readFromIt P input (mem, w) = .ret r (mem, w) := by
  show Its.scope _ _ _ _ = _
  unfold Its.scope
  rw [C31_read_value hP hs hg hr _ (yields_its _ mem input 0 w hm)]

/-- C64, buffered dispatcher, between two packets. -/
theorem C64_buffered (h : Setting P K f defs) {b : Buf (Its σ)} {mem : Mem} {w : σ} {p : Nat × Nat}
    (hr : Reachable P K f (Its.hosted defs) shared (b, p, mem, w)) (hp : Pending b []) {i : Nat} (hi : i < K.decls.length) {args : List Val}
    (hf : Val.FitsAll (Safe P K.s) K.decls[i].sig.params args) (hroom : retSize K.decls[i].sig.ret ≤ outRoom K shared) {input output : Nat}
    (hm : slice mem input (request K.e K.s K.idxBytes i K.decls[i].sig.params args).length =
      request K.e K.s K.idxBytes i K.decls[i].sig.params args)
    (ho : ∀ r mem' w', defs K.decls[i].name args (mem, w) = .ret r (mem', w') → output ≤ mem'.length) :
    match defs K.decls[i].name args (mem, w) with
    | .ret r (mem', w') =>
      if output + (response K.e K.s K.decls[i].sig.ret r).length ≤ mem'.length then
        ∃ b' p', Buf.processIt P input output (b, p, mem, w) =
            .ret .resolved (b', p', splice mem' output (response K.e K.s K.decls[i].sig.ret r), w') ∧ Pending b' [] ∧ Unread b' []
      else Buf.processIt P input output (b, p, mem, w) = .fault .oobWrite
    | .threw st => ∃ b' p', Buf.processIt P input output (b, p, mem, w) = .threw (b', p', st)
    | .fault f => Buf.processIt P input output (b, p, mem, w) = .fault f := by
  have hg := h.ring.2 K.decls[i] (List.getElem_mem _)
  have hib : i < 256 ^ K.idxBytes := Nat.lt_trans hi (idxBytes_pos h.ring.1).2
  have h1 := run_request h.valid (D := Dispatcher.make K f (Its.hosted defs)) h.sup (idxBytes_pos h.ring.1).1 (i := i)
    (by show i < K.size; rw [K.size_eq h.ring.1]; exact hi) hib (make_acts hi) (makeAction_holds f K.e K.s _) hg (Lens.whole (Its σ))
    (dest := Its.write) hf (yields_its _ mem input output w hm)
  rw [zoom_whole] at h1
  have h2 := its_respond h.valid h.sup hg (h.typed _ (List.getElem_mem hi)) hf i
    (input + (request K.e K.s K.idxBytes i K.decls[i].sig.params args).length) output mem w ho
  dsimp only at h2
  have h1 := h1.trans h2
  have h3 := C48_request (its_hosted_setting h) (reachable_world hr ((input, output), mem, w)) hp hi hf hroom
    (yields_its _ mem input output w hm) Its.write
  rw [h1] at h3
  cases hd : defs K.decls[i].name args (mem, w) with
  | fault e => rw [hd] at h3; exact h3
  | threw w' =>
    rw [hd] at h3
    obtain ⟨b', h3⟩ := h3
    exact ⟨b', _, h3⟩
  | ret r w' =>
    rw [hd] at h3
    obtain ⟨mem', w'⟩ := w'
    simp only at h3 ⊢
    by_cases hb : output + (response K.e K.s K.decls[i].sig.ret r).length ≤ mem'.length
    · rw [if_pos hb] at h3 ⊢
      obtain ⟨b', h4, h5, h6⟩ := h3
      exact ⟨b', _, h4, h5, h6⟩
    · rw [if_neg hb] at h3 ⊢
      exact h3

/-- C64, `read_from(it)` of a buffered dispatcher, between two packets: the request is read at `input`; nothing is stored in the array, except by the
callback. -/
theorem C64_buffered_read (h : Setting P K f defs) {b : Buf (Its σ)} {mem : Mem} {w : σ} {p : Nat × Nat}
    (hr : Reachable P K f (Its.hosted defs) shared (b, p, mem, w)) (hp : Pending b []) {i : Nat} (hi : i < K.decls.length) {args : List Val}
    (hf : Val.FitsAll (Safe P K.s) K.decls[i].sig.params args) (hroom : retSize K.decls[i].sig.ret ≤ outRoom K shared) {input : Nat}
    (hm : slice mem input (request K.e K.s K.idxBytes i K.decls[i].sig.params args).length =
      request K.e K.s K.idxBytes i K.decls[i].sig.params args) :
    match defs K.decls[i].name args (mem, w) with
    | .ret r st => ∃ b' p', Buf.readFromIt P input (b, p, mem, w) = .ret .resolved (b', p', st) ∧ Pending b' [] ∧
        Unread b' (response K.e K.s K.decls[i].sig.ret r)
    | .threw st => ∃ b' p', Buf.readFromIt P input (b, p, mem, w) = .threw (b', p', st)
    | .fault f => Buf.readFromIt P input (b, p, mem, w) = .fault f := by
  have h1 := C44_request (its_hosted_setting h) (reachable_world hr ((input, 0), mem, w)) hp hi hf hroom (yields_its _ mem input 0 w hm)
  cases hd : defs K.decls[i].name args (mem, w) with
  | fault e =>
    have hd' : ∀ q, Its.hosted defs K.decls[i].name args (q, mem, w) = .fault e := fun q => zoom_fault hd
    rw [hd'] at h1
    exact h1
  | threw st =>
    have hd' : ∀ q, Its.hosted defs K.decls[i].name args (q, mem, w) = .threw (q, st) := fun q => zoom_threw (L := Its.world) hd
    rw [hd'] at h1
    obtain ⟨b', h2⟩ := h1
    exact ⟨b', _, h2⟩
  | ret r st =>
    have hd' : ∀ q, Its.hosted defs K.decls[i].name args (q, mem, w) = .ret r (q, st) := fun q => zoom_ret (L := Its.world) hd
    rw [hd'] at h1
    obtain ⟨b', h2, h3, h4⟩ := h1
    exact ⟨b', _, h2, h3, h4⟩

/-- C64, `write_to(it)` of a buffered dispatcher: what remains of the response is stored at `output`, and nothing else. -/
theorem C64_buffered_write {b : Buf (Its σ)} {out : List Byte} (hu : Unread b out) {mem : Mem} {output : Nat} (ho : output ≤ mem.length) (w : σ)
    (p : Nat × Nat) :
    if output + out.length ≤ mem.length then
      ∃ b' p', Buf.writeToIt output (b, p, mem, w) = .ret () (b', p', splice mem output out, w) ∧ Unread b' []
    else Buf.writeToIt output (b, p, mem, w) = .fault .oobWrite := by
  have h1 := writeTo_putAll (dest := Its.write) hu ((0, output), mem, w)
  rw [putAll_its _ _ _ _ _ ho] at h1
  by_cases hb : output + out.length ≤ mem.length
  · rw [if_pos hb] at h1 ⊢
    exact ⟨_, _, h1, unread_drained hu⟩
  · rw [if_neg hb] at h1 ⊢
    exact h1

/-- C64, in place: the request is written in an array, processed with the response stored over it, and the result is read back. The rest
of the array (before `pos`, and after the longer of the request and the response) is as before. -/
theorem C64_in_place (hP : P.Valid) (hK : KeyringOk K) (hs : Supported P K.e K.s)
    (ht : ∀ d ∈ K.decls, WellTyped P K.s ⟨d.sig, defs d.name⟩) (f : Features) {name : Nat} {k : Key}
    (hk : K.get11 name = some k ∨ K.get17 name = some k) {args : List Val} (hf : Val.FitsAll (Safe P K.s) k.sig.params args)
    {mem : Mem} {pos : Nat} {r : Option Val} {w w' : σ} (hd : ∀ mem, defs name args (mem, w) = .ret r (mem, w'))
    (h1 : pos + (request k.e k.s k.idxBytes k.index k.sig.params args).length ≤ mem.length)
    (h2 : pos + (response k.e k.s k.sig.ret r).length ≤ mem.length) :
    ∃ mem1 mem2, k.writeToIt P args pos (mem, w) = .ret () (mem1, w) ∧
      (Dispatcher.make K f defs).runIt P pos pos (mem1, w) = .ret k.index (mem2, w') ∧
      k.readFromIt P pos (mem2, w') = .ret r (mem2, w') ∧ mem2.length = mem.length ∧
      ∀ j, j < pos ∨ pos + (request k.e k.s k.idxBytes k.index k.sig.params args).length ≤ j ∧ pos + (response k.e k.s k.sig.ret r).length ≤ j →
        mem2[j]? = mem[j]? := by
  have hk : K.get11 name = some k := hk.elim id get17_get11
  obtain ⟨i, hi, rfl, rfl⟩ := K.get11_cases hK.1 hk
  have hg := hK.2 K.decls[i] (List.getElem_mem _)
  have hib : i < 256 ^ K.idxBytes := Nat.lt_trans hi (idxBytes_pos hK.1).2
  dsimp only at hf h1 h2 ⊢
  have hl := splice_length h1
  have hr : RetOk P K.s K.decls[i].sig.ret r := ht _ (List.getElem_mem hi) args (mem, w) r (mem, w') hf (hd mem)
  refine ⟨_, splice (splice mem pos (request K.e K.s K.idxBytes i K.decls[i].sig.params args)) pos (response K.e K.s K.decls[i].sig.ret r),
    C64_key_write hP hs (idxBytes_pos hK.1).1 hib hg hf h1 w, ?_, ?_, ?_, ?_⟩
  · have h := C64_dispatcher hP hK hs ht f hi hf (mem := splice mem pos (request K.e K.s K.idxBytes i K.decls[i].sig.params args)) (input := pos)
      (output := pos) (w := w) (slice_splice_same h1) (by
        intro r2 mem2 w2 h
        rw [hd] at h
        injection h with _ h
        injection h with h _
        rw [← h, hl]
        omega)
    rw [h, hd]
    simp only
    rw [if_pos (by rw [hl]; exact h2)]
  · exact C64_key_read hP hs hg hr (slice_splice_same (by rw [hl]; exact h2)) w'
  · rw [splice_length (by rw [hl]; exact h2), hl]
  · intro j hj
    rw [splice_getElem? (by rw [hl]; exact h2), splice_getElem? h1]
    rcases hj with hj | hj
    · rw [if_pos hj, if_pos hj]
    · rw [if_neg (by omega), if_neg (by omega), if_neg (by omega), if_neg (by omega)]

/-! ## Examples -/

/-- Definitions of the functions of `ledRing` on a world made of an array and of a log. Function 3 clears the first byte of the array. -/
def itDefs : Nat → List Val → Eff (Mem × List (List Val)) (Option Val) := fun name args w =>
  match name, args with
  | 1, [.int x, .int y] => .ret (some (.int ((x + y) % 65536))) (w.1, w.2 ++ [.int 1 :: args])
  | 2, [] => .ret none (w.1, w.2 ++ [[.int 2]])
  | 3, [.arr vs] => .ret (some (.int (-1))) (w.1.set 0 0#8, w.2 ++ [.int 3 :: vs])
  | _, _ => .ret none w

theorem it_typed : ∀ d ∈ ledRing.decls, WellTyped pc ledRing.s ⟨d.sig, itDefs d.name⟩ := by
  simp only [ledRing, List.mem_cons, List.not_mem_nil, or_false, forall_eq_or_imp, forall_eq]
  refine ⟨?_, ?_, ?_⟩
  · intro args w r w' hf h
    match args, hf with
    | [.int x, .int y], _ =>
      simp only [itDefs] at h
      injection h with h1 _
      subst h1
      simp only [RetOk, Val.Fits]
      omega
  · intro args w r w' hf h
    match args, hf with
    | [], _ => simp only [itDefs] at h; injection h with h1 _; subst h1; simp [RetOk]
  · intro args w r w' hf h
    match args, hf with
    | [.arr vs], _ =>
      simp only [itDefs] at h
      injection h with h1 _
      subst h1
      simp [RetOk, Val.Fits, Safe, MinSafe, Representable, InRange, pc]

theorem it_setting (f : Features) : Setting pc ledRing f itDefs := ⟨pc_valid, ledRing_ok, pc_supported _ _, (led_setting f).sizes, it_typed⟩

/-- The response overwrites the last bytes of the request. -/
example : (Dispatcher.make ledRing .any itDefs).runIt pc 1 3 ([9#8, 0#8, 1#8, 2#8, 3#8, 9#8], []) =
    .ret 0 ([9#8, 0#8, 1#8, 0x04#8, 0x02#8, 9#8], [[.int 1, .int 0x201, .int 3]]) := by
  refine (C64_dispatcher pc_valid ledRing_ok (pc_supported _ _) it_typed .any (i := 0) (by decide) (args := [.int 0x201, .int 3])
    (by simp [ledRing, Val.FitsAll, Val.Fits]) (mem := [9#8, 0#8, 1#8, 2#8, 3#8, 9#8]) (input := 1) (output := 3) (w := []) (by decide)
    (by intro r mem' w' h; injection h with _ h; injection h with h _; rw [← h]; decide)).trans ?_
  show (if _ then _ else _ : Res _ Nat) = _
  rw [if_pos (by decide)]
  rfl

/-- The response does not fit. -/
example : (Dispatcher.make ledRing .any itDefs).runIt pc 0 5 ([2#8, 0#8, 1#8, 2#8, 3#8, 9#8], []) = .fault .oobWrite := by
  refine (C64_dispatcher pc_valid ledRing_ok (pc_supported _ _) it_typed .any (i := 2) (by decide) (args := [.arr [.int 0, .int 1]])
    (by simp [ledRing, Val.FitsAll, Val.Fits]) (mem := [2#8, 0#8, 1#8, 2#8, 3#8, 9#8]) (input := 0) (output := 5) (w := []) (by decide)
    (by intro r mem' w' h; injection h with _ h; injection h with h _; rw [← h]; decide)).trans ?_
  show (if _ then _ else _ : Res _ Nat) = _
  rw [if_neg (by decide)]

example : (Dispatcher.make ledRing .any itDefs).runIt pc 1 1 ([9#8, 77#8], []) = .ret 77 ([9#8, 77#8], []) :=
  C64_unknown_index pc_valid ledRing_ok (pc_supported _ _) .any 1 (bs := [77#8]) rfl rfl (by decide) []

example : (Action.weak .little .twosComplement ⟨⟨[.uint 2, .uint 1], some (.uint 2)⟩, itDefs 1⟩).invokeIt pc 0 0 ([1#8, 2#8, 3#8, 9#8], []) =
    .ret () ([0x04#8, 0x02#8, 3#8, 9#8], [[.int 1, .int 0x201, .int 3]]) := by
  refine (C64_action (cb := ⟨⟨[.uint 2, .uint 1], some (.uint 2)⟩, itDefs 1⟩) pc_valid (pc_supported _ _)
    (by simp [SigOk, Ty.WFs, Ty.WF, PackedAll, Packed]) (it_typed _ (List.mem_cons_self ..)) (Or.inr rfl) (args := [.int 0x201, .int 3])
    (by simp [Val.FitsAll, Val.Fits]) (mem := [1#8, 2#8, 3#8, 9#8]) (input := 0) (output := 0) (w := []) (by decide)
    (by intro r mem' w' h; injection h with _ h; injection h with h _; rw [← h]; decide)).trans ?_
  show (if _ then _ else _ : Res _ Unit) = _
  rw [if_pos (by decide)]
  rfl

/-- As in test/buffered_dispatcher.cpp:281-283. -/
example (f : Features) : ∃ b' p', Buf.processIt pc 0 0 (fresh pc ledRing f (Its.hosted itDefs) (2 ^ 64 - 1) true, (0, 0),
      [0#8, 1#8, 2#8, 3#8, 9#8], []) =
    .ret .resolved (b', p', [0x04#8, 0x02#8, 2#8, 3#8, 9#8], [[.int 1, .int 0x201, .int 3]]) ∧ Pending b' [] ∧ Unread b' [] := by
  have h := C64_buffered (shared := true) (it_setting f) (b := fresh pc ledRing f (Its.hosted itDefs) (2 ^ 64 - 1) true)
    (mem := [0#8, 1#8, 2#8, 3#8, 9#8]) (w := []) (p := (0, 0)) ⟨_, _, .start⟩ (fresh_pending ..) (i := 0) (by decide) (args := [.int 0x201, .int 3])
    (by simp [ledRing, Val.FitsAll, Val.Fits])
    (by decide) (input := 0) (output := 0) (by decide)
    (by intro r mem' w' h; injection h with _ h; injection h with h _; rw [← h]; decide)
  rw [show itDefs ledRing.decls[0].name [.int 0x201, .int 3] ([0#8, 1#8, 2#8, 3#8, 9#8], []) =
    .ret (some (.int 0x204)) ([0#8, 1#8, 2#8, 3#8, 9#8], [[.int 1, .int 0x201, .int 3]]) from rfl] at h
  simp only at h
  rw [if_pos (by decide)] at h
  exact h

example (mem : Mem) (h : mem.length = 64) : ∃ mem1 mem2,
    (⟨.little, .twosComplement, 1, 0, [.uint 2, .uint 1], some (.uint 2)⟩ : Key).writeToIt pc [.int 0x201, .int 3] 10 (mem, ([] : List (List Val))) =
      .ret () (mem1, []) ∧
    (Dispatcher.make ledRing .any itDefs).runIt pc 10 10 (mem1, []) = .ret 0 (mem2, [[.int 1, .int 0x201, .int 3]]) ∧
    (⟨.little, .twosComplement, 1, 0, [.uint 2, .uint 1], some (.uint 2)⟩ : Key).readFromIt pc 10 (mem2, [[Val.int 1, .int 0x201, .int 3]]) =
      .ret (some (.int 0x204)) (mem2, [[.int 1, .int 0x201, .int 3]]) := by
  obtain ⟨m1, m2, h1, h2, h3, _⟩ := C64_in_place (K := ledRing) (defs := itDefs) (name := 1)
    (k := ⟨.little, .twosComplement, 1, 0, [.uint 2, .uint 1], some (.uint 2)⟩) pc_valid ledRing_ok (pc_supported _ _) it_typed .any
    (Or.inl rfl) (args := [.int 0x201, .int 3])
    (by simp [Val.FitsAll, Val.Fits]) (mem := mem) (pos := 10) (r := some (.int 0x204)) (w := [])
    (w' := [[.int 1, .int 0x201, .int 3]])
    (fun _ => rfl) (by rw [h]; decide) (by rw [h]; decide)
  exact ⟨m1, m2, h1, h2, h3⟩

/-- A request read at 2, whose response is then stored at 1. -/
example (f : Features) : ∃ b' p' b'' p'', Buf.readFromIt pc 2 (fresh pc ledRing f (Its.hosted itDefs) (2 ^ 64 - 1) true, (0, 0),
      [9#8, 9#8, 0#8, 1#8, 2#8, 3#8], []) =
      .ret .resolved (b', p', [9#8, 9#8, 0#8, 1#8, 2#8, 3#8], [[.int 1, .int 0x201, .int 3]]) ∧
    Buf.writeToIt 1 (b', p', [9#8, 9#8, 0#8, 1#8, 2#8, 3#8], [[Val.int 1, .int 0x201, .int 3]]) =
      .ret () (b'', p'', [9#8, 0x04#8, 0x02#8, 1#8, 2#8, 3#8], [[.int 1, .int 0x201, .int 3]]) := by
  have h := C64_buffered_read (shared := true) (it_setting f) (b := fresh pc ledRing f (Its.hosted itDefs) (2 ^ 64 - 1) true)
    (mem := [9#8, 9#8, 0#8, 1#8, 2#8, 3#8]) (w := []) (p := (0, 0)) ⟨_, _, .start⟩ (fresh_pending ..) (i := 0) (by decide)
    (args := [.int 0x201, .int 3]) (by simp [ledRing, Val.FitsAll, Val.Fits]) (by decide) (input := 2) (by decide)
  rw [show itDefs ledRing.decls[0].name [.int 0x201, .int 3] ([9#8, 9#8, 0#8, 1#8, 2#8, 3#8], []) =
    .ret (some (.int 0x204)) ([9#8, 9#8, 0#8, 1#8, 2#8, 3#8], [[.int 1, .int 0x201, .int 3]]) from rfl] at h
  obtain ⟨b', p', h1, _, h2⟩ := h
  have h3 := C64_buffered_write h2 (mem := [9#8, 9#8, 0#8, 1#8, 2#8, 3#8]) (output := 1) (by decide) [[Val.int 1, .int 0x201, .int 3]] p'
  rw [if_pos (by decide)] at h3
  obtain ⟨b'', p'', h4, _⟩ := h3
  exact ⟨b', p', b'', p'', h1, h4⟩

/-! ## Further uses -/

example (mem : Mem) (h : mem.length = 6) :
    (⟨.little, .twosComplement, 1, 0, [.uint 2, .uint 1], some (.uint 2)⟩ : Key).writeToIt pc [.int 0x201, .int 3] 2 (mem, ()) =
      .ret () (splice mem 2 [0#8, 1#8, 2#8, 3#8], ()) :=
  C64_key_write (k := ⟨.little, .twosComplement, 1, 0, [.uint 2, .uint 1], some (.uint 2)⟩) pc_valid (pc_supported _ _) (by decide) (by decide)
    (by simp [SigOk, Ty.WFs, Ty.WF, PackedAll, Packed]) (by simp [Val.FitsAll, Val.Fits]) (by rw [h]; decide) ()

example : (⟨.little, .twosComplement, 1, 0, [.uint 2, .uint 1], some (.uint 2)⟩ : Key).readFromIt pc 1 ([9#8, 4#8, 2#8], ()) =
    .ret (some (.int 0x204)) ([9#8, 4#8, 2#8], ()) :=
  C64_key_read (k := ⟨.little, .twosComplement, 1, 0, [.uint 2, .uint 1], some (.uint 2)⟩) pc_valid (pc_supported _ _)
    (by simp [SigOk, Ty.WFs, Ty.WF, PackedAll, Packed]) (by simp [RetOk, Val.Fits]) (by decide) ()

end Upd
