import Verif.Props.Buffered

/-!
# Buffered dispatchers: `read_from`, `write_to`, `get`, `operator()` and `reply` (C44, C45, C48, C49, C50, C52)
-/

namespace Upd
open Spec TypeList

variable {σ : Type}

/-! ## C44 -/

section
variable {P : Platform} {K : Keyring} {f : Features} {defs : Nat → List Val → Eff σ (Option Val)} {shared : Bool}

/-- C44. `l` has been received since the end of the last packet; `bs` does not complete the packet, and `bs` and `x` do. If these are the
bytes that `src` gives, `read_from(src)` consumes them and no other (the world is then `w1`), and its effect is that of putting them one
by one: same returned status, same exceptions, same final state. -/
theorem C44_same_as_puts (h : Setting P K f defs) {b : Buf σ} {w w1 : σ} (hr : Reachable P K f defs shared (b, w)) {l bs : List Byte}
    {x : Byte} (hp : Pending b l) (hi : Incomplete (protoOf K defs) (l ++ bs)) (hc : ¬ Incomplete (protoOf K defs) (l ++ bs ++ [x]))
    {src : Eff σ Byte} (hy : Yields src w (bs ++ [x]) w1) :
    Buf.readFrom P src (b, w) = (puts P (bs ++ [x]) >>= fun sts => pure (sts.getLastD .loading)) (b, w1) := by
  obtain ⟨hb, _, _, out, hm⟩ := reachable_pending h hr hp
  exact readFrom_last h.valid hm.inp hb hi hc hy

/-- C44: such bytes exist. If `src` gives enough bytes to complete the packet, then some first bytes of them complete it exactly. -/
theorem C44_exact_bytes {p : Proto σ} {l : List Byte} (hl : Incomplete p l) : ∀ {bs : List Byte}, ¬ Incomplete p (l ++ bs) →
    ∃ as x cs, bs = as ++ x :: cs ∧ Incomplete p (l ++ as) ∧ ¬ Incomplete p (l ++ as ++ [x])
  | [], h => by rw [List.append_nil] at h; exact absurd hl h
  | x :: bs, h => by
    by_cases h1 : Incomplete p (l ++ [x])
    · obtain ⟨as, y, cs, rfl, h2, h3⟩ := C44_exact_bytes h1 (bs := bs) (by simpa using h)
      exact ⟨x :: as, y, cs, rfl, by simpa using h2, by simpa using h3⟩
    · exact ⟨[], x, bs, rfl, by simpa using hl, by simpa using h1⟩

/-- C44: in a reachable state, the packet being received is never complete. -/
theorem C44_incomplete (h : Setting P K f defs) {b : Buf σ} {w : σ} (hr : Reachable P K f defs shared (b, w)) :
    ∃ l, Pending b l ∧ Incomplete (protoOf K defs) l := by
  obtain ⟨_, _, _, m, hm⟩ := reachable_inv h hr
  refine ⟨m.pending, pending_relIn hm.inp, ?_⟩
  rcases hm.inp.load with ⟨h1, _⟩ | ⟨_, _, cb, h1, h2, _⟩
  · exact Or.inl h1
  · exact Or.inr ⟨cb, h1, h2⟩

/-- C44: `read_from` never returns LOADING_PACKET, and leaves the dispatcher between two packets. -/
theorem C44_never_loading (h : Setting P K f defs) {b b' : Buf σ} {w w' : σ} (hr : Reachable P K f defs shared (b, w))
    {src : Eff σ Byte} {st : Status} (he : Buf.readFrom P src (b, w) = .ret st (b', w')) : st ≠ .loading ∧ Pending b' [] := by
  obtain ⟨hb, _, _, m, hm⟩ := reachable_inv h hr
  have := readFrom_outcome h.valid src hm hb w
  rw [he] at this
  exact ⟨this.1, pending_relIn this.2.2.1⟩

/-- The bound on the number of iterations in the model of `read_from` is never reached (unless the code of the user says so). -/
theorem readFrom_never_starved (h : Setting P K f defs) {b : Buf σ} {w : σ} (hr : Reachable P K f defs shared (b, w))
    {src : Eff σ Byte} (h1 : ∀ w, src w ≠ .fault .starved) (h2 : ∀ d ∈ K.decls, ∀ args w, defs d.name args w ≠ .fault .starved) :
    Buf.readFrom P src (b, w) ≠ .fault .starved := by
  intro he
  obtain ⟨hb, _, _, m, hm⟩ := reachable_inv h hr
  have := readFrom_outcome h.valid src hm hb w
  rw [he] at this
  rcases this with (⟨h3, _⟩ | ⟨h3 | h3, _⟩ | ⟨cb, h3, args, w, h4⟩) | ⟨w, h3⟩
  · cases h3
  · cases h3
  · cases h3
  · obtain ⟨d, hd, rfl⟩ := protoOf_mem h3
    exact h2 d hd args w h4
  · exact h1 w h3

end

example (b : Buf (List Byte × List (List Val) × List Byte)) (rest : List Byte)
    (h1 : Reachable pc ledRing .any ledDefs true (b, ([0x01#8, 7#8] ++ rest, [], []))) (h2 : Pending b [0#8, 0x2c#8]) :
    Buf.readFrom pc demoSrc (b, ([0x01#8, 7#8] ++ rest, [], [])) =
      (puts pc [0x01#8, 7#8] >>= fun sts => pure (sts.getLastD .loading)) (b, (rest, [], [])) :=
  C44_same_as_puts (led_setting .any) h1 (bs := [0x01#8]) (x := 7#8) h2
    (Or.inr ⟨⟨⟨[.uint 2, .uint 1], some (.uint 2)⟩, ledDefs 1⟩, rfl, (by decide : 3 < 1 + 3)⟩)
    (by
      rintro (h | ⟨cb, h, h'⟩)
      · exact absurd (h : 4 < 1) (by decide)
      · cases h; exact absurd (h' : 4 < 1 + 3) (by decide))
    (src := demoSrc) (.cons rfl (.cons rfl (.nil _)))

example (w : List Byte × List (List Val) × List Byte) (src : Eff _ Byte) (st : Status) (b' : Buf _) (w' : _)
    (h : Buf.readFrom pc src (fresh pc ledRing .any ledDefs (2 ^ 64 - 1) true, w) = .ret st (b', w')) :
    st ≠ .loading ∧ Pending b' [] := C44_never_loading (led_setting .any) (led_start .any true w) h

/-! ## C52 -/

section
variable {P : Platform} {K : Keyring} {f : Features} {defs : Nat → List Val → Eff σ (Option Val)} {shared : Bool}

/-- C52. `l` has been received since the end of the last packet. The getter gives the bytes `bs`, which do not complete the packet, then
throws: so does `read_from`, the bytes received are kept, and what remains of the previous response too (if there is a separate output
buffer). From then on, whatever happens to the rest of the world, a later call of `read_from` with any getter `src'` which gives the
missing bytes `bs'` and `x` has the same effect as putting all the bytes from the beginning on a dispatcher on which the first call did not
take place. -/
theorem C52_resume (h : Setting P K f defs) {b : Buf σ} {w w1 w2 : σ} (hr : Reachable P K f defs shared (b, w)) {l bs : List Byte}
    (hp : Pending b l) (hi : Incomplete (protoOf K defs) (l ++ bs)) {src : Eff σ Byte} (hy : Yields src w bs w1)
    (ht : src w1 = .threw w2) :
    ∃ b', Buf.readFrom P src (b, w) = .threw (b', w2) ∧ Pending b' (l ++ bs) ∧
      (∀ out, Unread b out → (shared = true → out = []) → Unread b' out) ∧
      ∀ (src' : Eff σ Byte) (bs' : List Byte) (x : Byte) (w3 w4 : σ), Incomplete (protoOf K defs) (l ++ bs ++ bs') →
        ¬ Incomplete (protoOf K defs) (l ++ bs ++ bs' ++ [x]) → Yields src' w3 (bs' ++ [x]) w4 →
        Buf.readFrom P src' (b', w3) =
          (puts P (bs ++ (bs' ++ [x])) >>= fun sts => pure (sts.getLastD .loading)) (b, w4) := by
  obtain ⟨hb, _, hs, out, hm⟩ := reachable_pending h hr hp
  obtain ⟨b1, h1, h2, h3, h4, h5⟩ := puts_loading_all h.valid hm.inp hb hi
  refine ⟨b1, ?_, pending_relIn h2, fun o ho hd => unread_keep ho h3 h4 (by rw [hs]; exact hd), ?_⟩
  · rw [h5 src w w1 hy, readFrom_unfold h.valid h2 (hb.same h3), Eff.bind_threw (onWorld_threw ht)]
  · intro src' bs' x w3 w4 hi' hc hy'
    rw [readFrom_last h.valid h2 (hb.same h3) hi' hc hy', puts_append P bs (bs' ++ [x]), bind_assoc, Eff.bind_ret (h1 w4), bind_assoc]
    apply congrFun
    apply Eff.bind_congr
    intro w sts w' he
    rw [pure_bind]
    have hne : sts ≠ [] := by
      rintro rfl
      have hl : ∀ {bs : List Byte} {st st' : BState σ} {sts : List Status}, puts P bs st = .ret sts st' →
          sts.length = bs.length := by
        intro bs
        induction bs with
        | nil => intro st st' sts h; cases h; rfl
        | cons y bs ih =>
          intro st st' sts h
          obtain ⟨s, t, _, h⟩ := Eff.bind_eq_ret h
          obtain ⟨ss, t', h', h⟩ := Eff.bind_eq_ret h
          cases h
          rw [List.length_cons, List.length_cons, ih h']
      have := hl he
      simp at this
    obtain ⟨init, y, rfl⟩ : ∃ init y, sts = init ++ [y] := ⟨_, _, (List.dropLast_concat_getLast hne).symm⟩
    rw [← List.append_assoc]
    simp [List.getLastD_eq_getLast?]

end

example (b : Buf (List Byte × List (List Val) × List Byte))
    (h1 : Reachable pc ledRing .any ledDefs false (b, ([0x2c#8], [], []))) (h2 : Pending b [0#8]) :
    ∃ b', Buf.readFrom pc demoSrc (b, ([0x2c#8], [], [])) = .threw (b', ([], [], [])) ∧ Pending b' [0#8, 0x2c#8] ∧
      (∀ out, Unread b out → (false = true → out = []) → Unread b' out) ∧
      ∀ src' (bs' : List Byte) (x : Byte) w3 w4, Incomplete (protoOf ledRing ledDefs) ([0#8, 0x2c#8] ++ bs') →
        ¬ Incomplete (protoOf ledRing ledDefs) ([0#8, 0x2c#8] ++ bs' ++ [x]) → Yields src' w3 (bs' ++ [x]) w4 →
        Buf.readFrom pc src' (b', w3) =
          (puts pc ([0x2c#8] ++ (bs' ++ [x])) >>= fun sts => pure (sts.getLastD .loading)) (b, w4) :=
  C52_resume (led_setting .any) h1 (l := [0#8]) (bs := [0x2c#8]) h2
    (Or.inr ⟨⟨⟨[.uint 2, .uint 1], some (.uint 2)⟩, ledDefs 1⟩, rfl, (by decide : 2 < 1 + 3)⟩)
    (src := demoSrc) (w1 := ([], [], [])) (.cons rfl (.nil _)) rfl

/-! ## C45 -/

/-- C45: the bytes not read yet are always well-defined. (After a packet has been resolved, they are those of the response, see C39.) -/
theorem C45_unread {P : Platform} {K : Keyring} {f : Features} {defs : Nat → List Val → Eff σ (Option Val)} {shared : Bool}
    (h : Setting P K f defs) {b : Buf σ} {w : σ} (hr : Reachable P K f defs shared (b, w)) :
    ∃ out, Unread b out ∧ ∀ out', Unread b out' → out' = out := by
  obtain ⟨_, _, _, m, hm⟩ := reachable_inv h hr
  exact ⟨m.out, hm.outp, fun out' h' => unread_unique h' hm.outp⟩

theorem drain_sim (dest : Byte → Eff σ Unit) : ∀ {out : List Byte} {n : Nat} {b : Buf σ} {w : σ}, Unread b out → out.length < n →
    Simulates Unread (Buf.writeLoop dest n (b, w)) (drain dest out w)
  | [], n + 1, b, w, h, _ => by
    show Simulates _ ((if b.isLoaded then Buf.get >>= fun x => onWorld (dest x) >>= fun _ => Buf.writeLoop dest n else pure () : Eff (BState σ) Unit) (b, w)) _
    rw [unread_isLoaded h]
    exact ⟨rfl, rfl, h⟩
  | x :: out, n + 1, b, w, h, hn => by
    obtain ⟨b', h1, h2, _, _⟩ := get_cons h w
    show Simulates _ ((if b.isLoaded then Buf.get >>= fun x => onWorld (dest x) >>= fun _ => Buf.writeLoop dest n else pure () : Eff (BState σ) Unit) (b, w))
      (match dest x w with | .ret _ w => drain dest out w | .threw w => .threw (out, w) | .fault f => .fault f)
    rw [unread_isLoaded h]
    simp only [List.isEmpty_cons, Bool.not_false, if_true]
    rw [Eff.bind_ret h1]
    cases hd : dest x w with
    | ret _ w' => rw [Eff.bind_ret (onWorld_ret hd)]; exact drain_sim dest h2 (by simp at hn; omega)
    | threw w' => rw [Eff.bind_threw (onWorld_threw hd)]; exact ⟨rfl, h2⟩
    | fault f => rw [Eff.bind_fault (onWorld_fault hd)]; exact rfl

theorem outOp_sim (op : OutOp σ) {b : Buf σ} {out : List Byte} (h : Unread b out) (w : σ) :
    Simulates Unread (op.run (b, w)) (op.runQ (out, w)) := by
  cases op with
  | get =>
    cases out with
    | nil =>
      show Simulates _ ((Buf.get >>= fun x => pure (Obs.byte x) : Eff (BState σ) Obs) (b, w)) _
      rw [Eff.bind_ret (get_empty h w)]
      exact ⟨rfl, rfl, h⟩
    | cons x out =>
      obtain ⟨b', h1, h2, _, _⟩ := get_cons h w
      show Simulates _ ((Buf.get >>= fun x => pure (Obs.byte x) : Eff (BState σ) Obs) (b, w)) _
      rw [Eff.bind_ret h1]
      exact ⟨rfl, rfl, h2⟩
  | isLoaded =>
    refine ⟨?_, rfl, h⟩
    show Obs.bool b.isLoaded = _
    rw [unread_isLoaded h]
    cases out <;> rfl
  | writeTo dest =>
    have := drain_sim dest (n := b.out.length + 2) (w := w) h (by have := h.bottom; have := h.le; omega)
    show Simulates _ ((Buf.writeTo dest >>= fun _ => pure Obs.unit : Eff (BState σ) Obs) (b, w))
      ((drainAll dest >>= fun _ => pure Obs.unit : Eff (List Byte × σ) Obs) (out, w))
    revert this
    have hw : Buf.writeTo dest (b, w) = Buf.writeLoop dest (b.out.length + 2) (b, w) := rfl
    rw [← hw]
    cases h1 : Buf.writeTo dest (b, w) <;> cases h2 : drain dest out w
    all_goals intro hs; try exact hs.elim
    · rw [Eff.bind_ret h1, Eff.bind_ret (x := drainAll dest) (w := (out, w)) h2]
      exact ⟨rfl, hs.2⟩
    · rw [Eff.bind_threw h1, Eff.bind_threw (x := drainAll dest) (w := (out, w)) h2]
      exact hs
    · rw [Eff.bind_fault h1, Eff.bind_fault (x := drainAll dest) (w := (out, w)) h2]
      exact hs

/-- C45. Whatever the interleaving of `get`, `is_loaded` and `write_to` (with any putters, throwing or not), the output side behaves as a
queue which contains the bytes not read yet (`OutOp.runQ`): `get` gives the first byte of it and removes it, or gives 0 if it is
empty; `is_loaded` tells whether it is empty; `write_to` gives all the bytes in order to the putter. -/
theorem C45_fifo : ∀ (ops : List (OutOp σ)) {b : Buf σ} {out : List Byte}, Unread b out → ∀ w : σ,
    Simulates Unread (runAll OutOp.run ops (b, w)) (runAll OutOp.runQ ops (out, w))
  | [], b, out, h, w => ⟨rfl, rfl, h⟩
  | op :: ops, b, out, h, w => by
    have := outOp_sim op h w
    show Simulates _ ((OutOp.run op >>= fun o => runAll OutOp.run ops >>= fun os => pure (o :: os)) (b, w))
      ((OutOp.runQ op >>= fun o => runAll OutOp.runQ ops >>= fun os => pure (o :: os)) (out, w))
    revert this
    cases h1 : op.run (b, w) <;> cases h2 : op.runQ (out, w)
    all_goals intro hs; try exact hs.elim
    · rename_i o1 t1 o2 t2
      obtain ⟨b1, w1⟩ := t1
      obtain ⟨q2, w2⟩ := t2
      obtain ⟨rfl, rfl, hu⟩ := hs
      rw [Eff.bind_ret h1, Eff.bind_ret h2]
      have := C45_fifo ops hu w1
      revert this
      cases h3 : runAll OutOp.run ops (b1, w1) <;> cases h4 : runAll OutOp.runQ ops (q2, w1)
      all_goals intro hs; try exact hs.elim
      · rw [Eff.bind_ret h3, Eff.bind_ret h4]; exact ⟨by rw [hs.1], hs.2⟩
      · rw [Eff.bind_threw h3, Eff.bind_threw h4]; exact hs
      · rw [Eff.bind_fault h3, Eff.bind_fault h4]; exact hs
    · rw [Eff.bind_threw h1, Eff.bind_threw h2]; exact hs
    · rw [Eff.bind_fault h1, Eff.bind_fault h2]; exact hs

/-- C45: `write_to` in particular, when the putter accepts all the bytes. -/
theorem C45_write_to {b : Buf σ} {out : List Byte} (h : Unread b out) {dest : Byte → Eff σ Unit} {w w' : σ}
    (ha : Accepts dest w out w') : ∃ b', Buf.writeTo dest (b, w) = .ret () (b', w') ∧ Unread b' [] ∧ b'.isLoaded = false :=
  ⟨_, writeTo_accepts h ha, unread_drained h, by rw [unread_isLoaded (unread_drained h)]; rfl⟩

example (b : Buf (List Byte × List (List Val) × List Byte)) (h : Unread b [0x33#8, 0x01#8]) :
    Simulates Unread (runAll OutOp.run [.isLoaded, .get, .writeTo demoDest, .get, .isLoaded] (b, ([], [], [])))
      (.ret [.bool true, .byte 0x33#8, .unit, .byte 0#8, .bool false] ([], ([], [], [0x01#8]))) :=
  C45_fifo [.isLoaded, .get, .writeTo demoDest, .get, .isLoaded] h ([], [], [])

example (b : Buf (List Byte × List (List Val) × List Byte)) (h : Unread b [0x33#8, 0x01#8]) :
    ∃ b', Buf.writeTo demoDest (b, ([], [], [])) = .ret () (b', ([], [], [0x33#8, 0x01#8])) ∧ Unread b' [] ∧ b'.isLoaded = false :=
  C45_write_to h (.cons rfl (.cons rfl (.nil _)))

/-! ## C48 -/

theorem putAll_prefix {dest : Byte → Eff σ Unit} {sent : List Byte} {w w1 : σ} (ha : Accepts dest w sent w1) (rest : List Byte) :
    putAll dest (sent ++ rest) w = putAll dest rest w1 := by
  induction ha with
  | nil => rfl
  | @cons w w1 w2 y ys h0 _ ih =>
    show (dest y >>= fun _ => putAll dest (ys ++ rest)) w = _
    rw [Eff.bind_ret h0, ih]

/-- What `write_to` does to the world and its result are those of giving each byte not read yet to the putter. -/
theorem writeTo_putAll {dest : Byte → Eff σ Unit} {b : Buf σ} {out : List Byte} (h : Unread b out) (w : σ) :
    match putAll dest out w with
    | .ret _ w' => Buf.writeTo dest (b, w) = .ret () ({ b with obufNext := b.obufBottom }, w')
    | .threw w' => ∃ n, Buf.writeTo dest (b, w) = .threw ({ b with obufNext := n }, w')
    | .fault f => Buf.writeTo dest (b, w) = .fault f := by
  rcases writeTo_cases dest (w := w) h with ⟨w', h1, h2⟩ | ⟨sent, x, rest, w1, rfl, h1, h2⟩
  · rw [putAll_accepts h1]; exact h2
  · rw [putAll_prefix h1]
    rcases h2 with ⟨w', h3, _, h4⟩ | ⟨f, h3, h4⟩
    · rw [show putAll dest (x :: rest) w1 = .threw w' from Eff.bind_threw (f := fun _ => putAll dest rest) h3]
      exact ⟨_, h4⟩
    · rw [show putAll dest (x :: rest) w1 = .fault f from Eff.bind_fault (f := fun _ => putAll dest rest) h3]
      exact h4

section
variable {P : Platform} {K : Keyring} {f : Features} {defs : Nat → List Val → Eff σ (Option Val)} {shared : Bool}

/-- C44 for a whole request, between two packets: `read_from` calls the function on the arguments and stores the response. -/
theorem C44_request (h : Setting P K f defs) {b : Buf σ} {w w1 : σ} (hr : Reachable P K f defs shared (b, w)) (hp : Pending b [])
    {i : Nat} (hi : i < K.decls.length) {args : List Val} (hf : Val.FitsAll (Safe P K.s) K.decls[i].sig.params args)
    (ho : retSize K.decls[i].sig.ret ≤ outRoom K shared) {src : Eff σ Byte}
    (hy : Yields src w (request K.e K.s K.idxBytes i K.decls[i].sig.params args) w1) :
    match defs K.decls[i].name args w1 with
    | .ret r w' => ∃ b', Buf.readFrom P src (b, w) = .ret .resolved (b', w') ∧ Pending b' [] ∧ Unread b' (response K.e K.s K.decls[i].sig.ret r)
    | .threw w' => ∃ b', Buf.readFrom P src (b, w) = .threw (b', w')
    | .fault flt => Buf.readFrom P src (b, w) = .fault flt := by
  obtain ⟨hb, hlen, _, out, hm⟩ := reachable_pending h hr hp
  obtain ⟨h1, h2, h3⟩ := request_parts h hi hf
  have hne : request K.e K.s K.idxBytes i K.decls[i].sig.params args ≠ [] := by
    intro h0
    have := congrArg List.length h0
    have hpos := hb.serves.pos
    unfold request at this
    rw [List.length_append, h1] at this
    simp at this
    omega
  obtain ⟨init, x, hl⟩ : ∃ init x, request K.e K.s K.idxBytes i K.decls[i].sig.params args = init ++ [x] :=
    ⟨_, _, (List.dropLast_concat_getLast hne).symm⟩
  have hinc : Incomplete (protoOf K defs) ([] ++ init) :=
    incomplete_call h1 h2 h3 (l' := [x]) (by rw [List.nil_append, ← hl]; rfl) (by simp)
  have hcl : (protoOf K defs).classify ([] ++ init ++ [x]) = .request ⟨K.decls[i].sig, defs K.decls[i].name⟩
      (wires K.e K.s K.decls[i].sig.params args) := by rw [List.nil_append, ← hl]; exact classify_call h1 h2 h3
  have hcomp : ¬ Incomplete (protoOf K defs) ([] ++ init ++ [x]) := by
    rw [← classify_more_iff, hcl]; simp
  have hread : Buf.readFrom P src (b, w) = _ := readFrom_last h.valid hm.inp hb hinc hcomp (by rw [← hl]; exact hy)
  rw [← hl] at hread
  have hcb := hb.serves.sig _ (mem_of_get h2)
  have hun : unwires (protoOf K defs).e (protoOf K defs).s K.decls[i].sig.params
      (wires K.e K.s K.decls[i].sig.params args) = args := unwires_wires h.valid h.sup hcb.1 hcb.2.1 hf
  have hcall := puts_call h.valid w1 hm.inp hb h1 h2 h3 (decodes_args h.valid hb.serves.sup hcb hf) (by rw [hlen]; exact ho)
  simp only [hun] at hcall
  cases hd : defs K.decls[i].name args w1 with
  | fault flt =>
    rw [hd] at hcall
    exact hread.trans (Eff.bind_fault hcall)
  | threw w2 =>
    rw [hd] at hcall
    obtain ⟨b1, h4⟩ := hcall
    exact ⟨b1, hread.trans (Eff.bind_threw h4)⟩
  | ret r w2 =>
    rw [hd] at hcall
    obtain ⟨b1, h4, h5, h6, h7⟩ := hcall
    refine ⟨b1, ?_, pending_relIn h5, h6⟩
    rw [hread]
    refine (Eff.bind_ret h4).trans ?_
    simp [List.getLastD_eq_getLast?]

/-- C48, on a whole request, between two packets: same effect on the world, same exceptions (of the callback or of the putter) and same
faults as with the unbuffered dispatcher. When it returns, the status is RESOLVED_PACKET, the whole response has been output and the
dispatcher is ready for the next packet. -/
theorem C48_request (h : Setting P K f defs) {b : Buf σ} {w w1 : σ} (hr : Reachable P K f defs shared (b, w)) (hp : Pending b [])
    {i : Nat} (hi : i < K.decls.length) {args : List Val} (hf : Val.FitsAll (Safe P K.s) K.decls[i].sig.params args)
    (ho : retSize K.decls[i].sig.ret ≤ outRoom K shared) {src : Eff σ Byte}
    (hy : Yields src w (request K.e K.s K.idxBytes i K.decls[i].sig.params args) w1) (dest : Byte → Eff σ Unit) :
    match (Dispatcher.make K f defs).run P (Lens.whole σ) src dest w with
    | .ret _ w' => ∃ b', Buf.process P src dest (b, w) = .ret .resolved (b', w') ∧ Pending b' [] ∧ Unread b' []
    | .threw w' => ∃ b', Buf.process P src dest (b, w) = .threw (b', w')
    | .fault flt => Buf.process P src dest (b, w) = .fault flt := by
  obtain ⟨hb, hlen, _, out, hm⟩ := reachable_pending h hr hp
  obtain ⟨h1, h2, h3⟩ := request_parts h hi hf
  have hg := h.ring.2 K.decls[i] (List.getElem_mem _)
  have hib : i < 256 ^ K.idxBytes := Nat.lt_trans hi (idxBytes_pos h.ring.1).2
  -- the unbuffered dispatcher
  have hrun := run_request h.valid (D := Dispatcher.make K f defs) h.sup (idxBytes_pos h.ring.1).1 (i := i)
    (by show i < K.size; rw [K.size_eq h.ring.1]; exact hi) hib (make_acts hi) (makeAction_holds f K.e K.s _) hg (Lens.whole σ)
    (dest := dest) hf hy
  rw [zoom_whole] at hrun
  rw [hrun]
  -- the buffered one
  have hne : request K.e K.s K.idxBytes i K.decls[i].sig.params args ≠ [] := by
    intro h0
    have := congrArg List.length h0
    have hpos := hb.serves.pos
    unfold request at this
    rw [List.length_append, h1] at this
    simp at this
    omega
  obtain ⟨init, x, hl⟩ : ∃ init x, request K.e K.s K.idxBytes i K.decls[i].sig.params args = init ++ [x] :=
    ⟨_, _, (List.dropLast_concat_getLast hne).symm⟩
  have hinc : Incomplete (protoOf K defs) ([] ++ init) :=
    incomplete_call h1 h2 h3 (l' := [x]) (by rw [List.nil_append, ← hl]; rfl) (by simp)
  have hcl : (protoOf K defs).classify ([] ++ init ++ [x]) = .request ⟨K.decls[i].sig, defs K.decls[i].name⟩
      (wires K.e K.s K.decls[i].sig.params args) := by rw [List.nil_append, ← hl]; exact classify_call h1 h2 h3
  have hcomp : ¬ Incomplete (protoOf K defs) ([] ++ init ++ [x]) := by
    rw [← classify_more_iff, hcl]; simp
  have hread : Buf.readFrom P src (b, w) = _ := readFrom_last h.valid hm.inp hb hinc hcomp (by rw [← hl]; exact hy)
  rw [← hl] at hread
  have hcb := hb.serves.sig _ (mem_of_get h2)
  have hun : unwires (protoOf K defs).e (protoOf K defs).s K.decls[i].sig.params
      (wires K.e K.s K.decls[i].sig.params args) = args := unwires_wires h.valid h.sup hcb.1 hcb.2.1 hf
  have hcall := puts_call h.valid w1 hm.inp hb h1 h2 h3 (decodes_args h.valid hb.serves.sup hcb hf) (by rw [hlen]; exact ho)
  simp only [hun] at hcall
  show match (defs K.decls[i].name args >>= fun r => respond P K.e K.s K.decls[i].sig.ret r dest >>= fun _ => pure i) w1 with
    | .ret _ w' => ∃ b', (Buf.readFrom P src >>= fun status =>
        if status = .resolved then Buf.writeTo dest >>= fun _ => pure status else pure status) (b, w) = .ret .resolved (b', w') ∧
        Pending b' [] ∧ Unread b' []
    | .threw w' => ∃ b', (Buf.readFrom P src >>= fun status =>
        if status = .resolved then Buf.writeTo dest >>= fun _ => pure status else pure status) (b, w) = .threw (b', w')
    | .fault flt => (Buf.readFrom P src >>= fun status =>
        if status = .resolved then Buf.writeTo dest >>= fun _ => pure status else pure status) (b, w) = .fault flt
  cases hd : defs K.decls[i].name args w1 with
  | fault flt =>
    rw [hd] at hcall
    rw [Eff.bind_fault hd]
    exact Eff.bind_fault (hread.trans (Eff.bind_fault hcall))
  | threw w2 =>
    rw [hd] at hcall
    obtain ⟨b1, h4⟩ := hcall
    rw [Eff.bind_threw hd]
    exact ⟨b1, Eff.bind_threw (hread.trans (Eff.bind_threw h4))⟩
  | ret r w2 =>
    rw [hd] at hcall
    obtain ⟨b1, h4, h5, h6, h7⟩ := hcall
    have hrd : Buf.readFrom P src (b, w) = .ret .resolved (b1, w2) := by
      rw [hread]
      refine (Eff.bind_ret h4).trans ?_
      simp [List.getLastD_eq_getLast?]
    rw [Eff.bind_ret hd, Eff.bind_ret hrd, respond_eq h.valid h.sup hg.2.2 (h.typed _ (List.getElem_mem hi) _ _ _ _ hf hd)]
    have hw := writeTo_putAll (dest := dest) h6 w2
    have hpe : response (protoOf K defs).e (protoOf K defs).s K.decls[i].sig.ret r = response K.e K.s K.decls[i].sig.ret r := rfl
    simp only [hpe] at hw
    cases hpa : putAll dest (response K.e K.s K.decls[i].sig.ret r) w2 with
    | fault flt =>
      rw [hpa] at hw
      rw [Eff.bind_fault hpa]
      exact Eff.bind_fault hw
    | threw w3 =>
      rw [hpa] at hw
      rw [Eff.bind_threw hpa]
      obtain ⟨n, hw⟩ := hw
      exact ⟨_, Eff.bind_threw hw⟩
    | ret _ w3 =>
      rw [hpa] at hw
      rw [Eff.bind_ret hpa]
      exact ⟨_, Eff.bind_ret (f := fun _ => pure Status.resolved) hw, pending_relIn (relIn_next h5 _), unread_drained h6⟩

/-- C48, in general, in any reachable state (between packets or not): if `read_from(src)` resolves the packet, then the response is output
as by `write_to(dest)`. -/
theorem C48_resolved {b b1 : Buf σ} {w w1 w2 : σ} {src : Eff σ Byte} (he : Buf.readFrom P src (b, w) = .ret .resolved (b1, w1))
    {out : List Byte} (hu : Unread b1 out) {dest : Byte → Eff σ Unit} (ha : Accepts dest w1 out w2) :
    ∃ b2, Buf.process P src dest (b, w) = .ret .resolved (b2, w2) ∧ Unread b2 [] := by
  refine ⟨_, ?_, unread_drained hu⟩
  show (Buf.readFrom P src >>= fun status =>
    if status = .resolved then Buf.writeTo dest >>= fun _ => pure status else pure status) (b, w) = _
  rw [Eff.bind_ret he, if_pos rfl, Eff.bind_ret (writeTo_accepts hu ha)]
  rfl

/-- C48: otherwise nothing is output, even if a previous response has not been read. -/
theorem C48_not_resolved (h : Setting P K f defs) {b b1 : Buf σ} {w w1 : σ} (hr : Reachable P K f defs shared (b, w))
    {src : Eff σ Byte} {st : Status} (he : Buf.readFrom P src (b, w) = .ret st (b1, w1)) (hst : st ≠ .resolved)
    (dest : Byte → Eff σ Unit) : Buf.process P src dest (b, w) = .ret .dropped (b1, w1) := by
  have := (C44_never_loading h hr he).1
  have hd : st = .dropped := by cases st <;> simp_all
  subst hd
  show (Buf.readFrom P src >>= fun status =>
    if status = .resolved then Buf.writeTo dest >>= fun _ => pure status else pure status) (b, w) = _
  rw [Eff.bind_ret he, if_neg (by simp)]
  rfl

/-- C48, on an invalid index, between two packets: the bytes of the index are consumed, nothing is output, no callback is called. -/
theorem C48_invalid_index (h : Setting P K f defs) {b : Buf σ} {w w1 : σ} (hr : Reachable P K f defs shared (b, w)) (hp : Pending b [])
    {index : List Byte} (hl : index.length = K.idxBytes) (hi : K.decls.length ≤ wireValue K.e index) {src : Eff σ Byte}
    (hy : Yields src w index w1) (dest : Byte → Eff σ Unit) :
    ∃ b', Buf.process P src dest (b, w) = .ret .dropped (b', w1) ∧ Pending b' [] := by
  obtain ⟨hb, hlen, _, out, hm⟩ := reachable_pending h hr hp
  have hpos := hb.serves.pos
  have hne : index ≠ [] := by
    rintro rfl
    have : (protoOf K defs).idxBytes = 0 := hl.symm
    omega
  have hc : (protoOf K defs).cbs[wireValue (protoOf K defs).e index]? = none := by
    rw [List.getElem?_eq_none_iff]; simpa [protoOf] using hi
  obtain ⟨init, x, rfl⟩ : ∃ init x, index = init ++ [x] := ⟨_, _, (List.dropLast_concat_getLast hne).symm⟩
  have hl' : (init ++ [x]).length = (protoOf K defs).idxBytes := hl
  have hinc : Incomplete (protoOf K defs) ([] ++ init) := Or.inl (by simp at hl' ⊢; omega)
  have hcomp : ¬ Incomplete (protoOf K defs) ([] ++ init ++ [x]) := by
    rw [← classify_more_iff, List.nil_append, classify_bad hl' hc]; simp
  have hread := readFrom_last h.valid hm.inp hb hinc hcomp hy
  obtain ⟨b', h4, h5, _⟩ := puts_invalid h.valid w1 hm.inp hb hl' hc
  rw [Eff.bind_ret h4] at hread
  refine ⟨b', ?_, pending_relIn h5⟩
  exact C48_not_resolved h hr (st := .dropped) (hread.trans (by simp [List.getLastD_eq_getLast?])) (by simp) dest

end

example (rest : List Byte) :
    ∃ b', Buf.process pc demoSrc demoDest (fresh pc ledRing .any ledDefs (2 ^ 64 - 1) true, ([0#8, 0x2c#8, 0x01#8, 7#8] ++ rest, [], [])) =
      .ret .resolved (b', (rest, [[.int 1, .int 300, .int 7]], [0x33#8, 0x01#8])) ∧ Pending b' [] ∧ Unread b' [] :=
  C48_request (led_setting .any) (led_start .any true _) (fresh_pending _ _ _ _ _ _) (i := 0) (by decide) (args := [.int 300, .int 7])
    (by simp [ledRing, Val.FitsAll, Val.Fits]) (led_fit true _ (List.getElem_mem _)) (src := demoSrc)
    (w := ([0#8, 0x2c#8, 0x01#8, 7#8] ++ rest, [], [])) (w1 := (rest, [], []))
    (.cons rfl (.cons rfl (.cons rfl (.cons rfl (.nil _))))) demoDest

example (rest : List Byte) :
    ∃ b', Buf.process pc demoSrc demoDest (fresh pc ledRing .any ledDefs (2 ^ 64 - 1) false, ([9#8] ++ rest, [], [])) =
      .ret .dropped (b', (rest, [], [])) ∧ Pending b' [] :=
  C48_invalid_index (led_setting .any) (led_start .any false _) (fresh_pending _ _ _ _ _ _) (index := [9#8]) rfl (by decide)
    (src := demoSrc) (.cons rfl (.nil _)) demoDest

/-! ## C49 -/

section
variable {P : Platform} {K : Keyring} {f : Features} {defs : Nat → List Val → Eff σ (Option Val)} {shared : Bool}

/-- C49, success: the response `out` has not been read at all (`obufNext = 0`) and fits in the `n` bytes of the parameter of `k`. `reply`
returns true, outputs the request for `k` whose argument is made of the response followed by `junk` (the bytes of an uninitialised
buffer), and empties the output buffer. The packet being received is not affected. -/
theorem C49_reply (hP : P.Valid) {k : Key} {n : Nat} (hk : ReplyKey P k n) {b : Buf σ} {out : List Byte} (hu : Unread b out)
    (h0 : b.obufNext = 0) (hn : out.length ≤ n) :
    ∃ junk : List Byte, junk.length = n - out.length ∧
      ∀ (output : Byte → Eff σ Unit) (w w' : σ),
        Accepts output w (request k.e k.s k.idxBytes k.index k.sig.params [.arr ((out ++ junk).map fun x => .int x.toNat)]) w' →
        ∃ b', Buf.reply P k n output (b, w) = .ret true (b', w') ∧ Unread b' [] ∧ ∀ l, Pending b l → Pending b' l := by
  have hs : splice (P.junkBytes n) 0 out = out ++ (P.junkBytes n).drop out.length := by
    unfold splice
    simp
  refine ⟨(P.junkBytes n).drop out.length, by simp [junkBytes_length], ?_⟩
  intro output w w' ha
  refine ⟨_, ?_, unread_drained hu, fun l hl => ⟨hl.next, hl.bytes⟩⟩
  rw [reply_eq hP hk output hu, if_pos ⟨h0, hn⟩, hs, putAll_accepts ha]

/-- C49, failure: nothing happens. -/
theorem C49_no_reply (hP : P.Valid) {k : Key} {n : Nat} (hk : ReplyKey P k n) {b : Buf σ} {out : List Byte} (hu : Unread b out)
    (h0 : ¬ (b.obufNext = 0 ∧ out.length ≤ n)) (output : Byte → Eff σ Unit) (w : σ) :
    Buf.reply P k n output (b, w) = .ret false (b, w) := by
  rw [reply_eq hP hk output hu, if_neg h0]

/-- C49: `reply` returns true only if the whole response is still in the buffer and fits. -/
theorem C49_true_only_if (hP : P.Valid) {k : Key} {n : Nat} (hk : ReplyKey P k n) {b b' : Buf σ} {out : List Byte} (hu : Unread b out)
    {output : Byte → Eff σ Unit} {w w' : σ} (he : Buf.reply P k n output (b, w) = .ret true (b', w')) :
    b.obufNext = 0 ∧ out.length ≤ n := by
  by_cases h0 : b.obufNext = 0 ∧ out.length ≤ n
  · exact h0
  · rw [C49_no_reply hP hk hu h0] at he
    cases he

/-- C49: reading any byte of the response is enough for `reply` to refuse. -/
theorem C49_after_get (hP : P.Valid) {k : Key} {n : Nat} (hk : ReplyKey P k n) {b b' : Buf σ} {x : Byte} {out : List Byte}
    (hu : Unread b (x :: out)) {w w' : σ} {y : Byte} (hg : Buf.get (b, w) = .ret y (b', w')) (output : Byte → Eff σ Unit) (w1 : σ) :
    y = x ∧ Buf.reply P k n output (b', w1) = .ret false (b', w1) := by
  obtain ⟨b1, h1, h2, _, rfl⟩ := get_cons hu w
  rw [h1] at hg
  cases hg
  exact ⟨rfl, C49_no_reply hP hk h2 (by simp) output w1⟩

end

/-- A key to which 3 bytes can be sent. -/
def storeKey : Key := ⟨.little, .twosComplement, 1, 5, ⟨[.arr (.uint 1) 3], none⟩⟩

theorem storeKey_ok : ReplyKey pc storeKey 3 := ⟨pc_supported _ _, by decide, by decide, rfl, by decide⟩

example (b : Buf (List Byte × List (List Val) × List Byte)) (h : Unread b [0x33#8, 0x01#8]) (h0 : b.obufNext = 0) :
    ∃ junk : List Byte, junk.length = 1 ∧
      ∀ (output : Byte → Eff (List Byte × List (List Val) × List Byte) Unit) w w',
        Accepts output w (request .little .twosComplement 1 5 [.arr (.uint 1) 3] [.arr (([0x33#8, 0x01#8] ++ junk).map fun x => .int x.toNat)]) w' →
        ∃ b', Buf.reply pc storeKey 3 output (b, w) = .ret true (b', w') ∧ Unread b' [] ∧ ∀ l, Pending b l → Pending b' l :=
  C49_reply pc_valid storeKey_ok h h0 (by decide)

example (b : Buf (List Byte × List (List Val) × List Byte)) (h : Unread b [1#8, 2#8, 3#8, 4#8]) (w : _) :
    Buf.reply pc storeKey 3 demoDest (b, w) = .ret false (b, w) := C49_no_reply pc_valid storeKey_ok h (by simp) demoDest w

/-! ## C50 -/

section
variable {P : Platform}

theorem move_new (b : Buf σ) : b.move.1 = b := by
  have h : (fun a : Action σ => a.move.1) = id := funext fun a => by cases a <;> rfl
  unfold Buf.move Dispatcher.move
  rw [h, List.map_id]

/-- C50: moving the dispatcher to a new object at any points of a sequence of calls, from any state, changes nothing: same results, exceptions,
faults, calls of callbacks and final state. -/
theorem C50_moved_to (ops : List (Option Io)) (st : BState σ) : runMoving P ops st = runAll (Io.run P) (ops.filterMap id) st := by
  induction ops generalizing st with
  | nil => rfl
  | cons op ops ih =>
    cases op with
    | none =>
      show runMoving P ops (st.1.move.1, st.2) = _
      rw [move_new, ih]
      rfl
    | some op =>
      have : runMoving P ops = runAll (Io.run P) (ops.filterMap id) := funext ih
      show (op.run P >>= fun o => runMoving P ops >>= fun os => pure (o :: os) : Eff (BState σ) (List Obs)) st = _
      rw [this]
      rfl

/-- C50: the moved-from object must not be used: the next valid index has no action any more, and `put` dereferences a null pointer. -/
theorem C50_moved_from {K : Keyring} {f : Features} {defs : Nat → List Val → Eff σ (Option Val)} {shared : Bool}
    (h : Setting P K f defs) (hf : f = .any) {b : Buf σ} {w : σ} (hr : Reachable P K f defs shared (b, w)) {l : List Byte} {x : Byte}
    (hp : Pending b l) (hl : l.length + 1 = K.idxBytes) (hi : wireValue K.e (l ++ [x]) < K.decls.length) :
    Buf.put P x (b.move.2, w) = .fault .nullDeref := by
  obtain ⟨hb, _, _, out, hm⟩ := reachable_pending h hr hp
  obtain ⟨sizeMax, w0, hr⟩ := hr
  have hdisp : b.disp = Dispatcher.make K f defs := by rw [(reach_inv h hr).1.disp]; exact fresh_disp _ _ _ _ _ _
  have hl' : l.length + 1 = (protoOf K defs).idxBytes := hl
  rcases hm.inp.load with ⟨_, h2, h3⟩ | ⟨h1, _⟩
  · have hroom : b.ibufNext < b.ibuf.length := by rw [hm.inp.next]; exact hm.inp.lt hb
    rw [put_stored_raw (b := b.move.2) hroom hm.inp.pos]
    have hlc : (b.move.2.stored x).loadCount = 0 := by
      show b.loadCount - 1 = 0
      rw [h3]; simp only; omega
    have hbytes := stored_bytes hm.inp hb x
    have hidx : withPtr (b.move.2.disp.getIndex P ibufSrc) (b.move.2.stored x, w) =
        .ret (wireValue K.e (l ++ [x])) (b.move.2.stored x, w) := by
      apply withPtr_ret (i := K.idxBytes)
      have hie : 0 + K.idxBytes ≤ (b.move.2.stored x).ibuf.length := by
        have := hm.inp.lt hb
        have he : (b.move.2.stored x).ibuf.length = b.ibuf.length := (stored_same b.move.2 x).ilen
        simp only at this
        omega
      have hg := getN_yields (ibufSrc_yields (b := b.move.2.stored x) (w := w) (n := K.idxBytes) (i := 0) hie)
      rw [slice_length hie] at hg
      have hD : b.move.2.disp.e = K.e ∧ b.move.2.disp.s = K.s ∧ b.move.2.disp.idxBytes = K.idxBytes := by
        show b.disp.e = _ ∧ b.disp.s = _ ∧ b.disp.idxBytes = _
        rw [hdisp]; exact ⟨rfl, rfl, rfl⟩
      rw [getIndex_eq h.valid (by rw [hD.1, hD.2.1]; exact h.sup) (by rw [hD.2.2]; exact (idxBytes_pos h.ring.1).1), hD.2.2, hD.1,
        Eff.bind_ret hg, Nat.zero_add]
      have : slice (b.move.2.stored x).ibuf 0 K.idxBytes = l ++ [x] := by rw [← hl]; exact hbytes
      rw [this]
      rfl
    rw [if_neg (by rw [hlc]; omega), if_neg (by show ¬ b.indexLoaded = true; rw [h2]; simp), Eff.bind_ret hidx,
      if_pos (by show _ < b.disp.size; rw [hdisp]; show _ < K.size; rw [K.size_eq h.ring.1]; exact hi)]
    have hat : b.move.2.disp.at (wireValue K.e (l ++ [x])) = .ok .null := by
      apply at_eq
      show (b.disp.acts.map fun a => a.move.2)[_]? = _
      rw [List.getElem?_map, hdisp, make_acts hi, hf]
      rfl
    rw [hat]
    rfl
  · have h1 : (protoOf K defs).idxBytes ≤ l.length := h1
    omega

end

example (b : Buf (List Byte × List (List Val) × List Byte)) (w : _) (h1 : Reachable pc ledRing .any ledDefs true (b, w))
    (h2 : Pending b []) : Buf.put pc 1#8 (b.move.2, w) = .fault .nullDeref :=
  C50_moved_from (led_setting .any) rfl h1 (l := []) h2 rfl (by decide)

example (b : Buf (List Byte × List (List Val) × List Byte)) (w : _) :
    runMoving pc [some (.put 0#8), some (.put 0x2c#8), none, some (.put 1#8), some (.put 7#8), some .get, none, some .get] (b, w) =
      runAll (Io.run pc) [.put 0#8, .put 0x2c#8, .put 1#8, .put 7#8, .get, .get] (b, w) := C50_moved_to _ _

/-! ## Further uses -/

/-- Among the bytes which are available, there is the one which completes the packet. -/
example (bs : List Byte) : ∃ as x cs, [0x2c#8, 0x01#8, 7#8] ++ bs = as ++ x :: cs ∧ Incomplete (protoOf ledRing ledDefs) ([0#8] ++ as) ∧
    ¬ Incomplete (protoOf ledRing ledDefs) ([0#8] ++ as ++ [x]) :=
  C44_exact_bytes (Or.inr ⟨⟨⟨[.uint 2, .uint 1], some (.uint 2)⟩, ledDefs 1⟩, rfl, by decide⟩) (by
    have h1 : (protoOf ledRing ledDefs).idxBytes = 1 := rfl
    rintro (h | ⟨cb, h, h'⟩)
    · simp [h1] at h
    · cases h
      simp [h1, wireSizes, wireSize] at h'
      omega)

example (w : List Byte × List (List Val) × List Byte) :
    ∃ l, Pending (fresh pc ledRing .any ledDefs (2 ^ 64 - 1) true) l ∧ Incomplete (protoOf ledRing ledDefs) l :=
  C44_incomplete (led_setting .any) (led_start .any true w)

example (rest : List Byte) :
    ∃ b', Buf.readFrom pc demoSrc (fresh pc ledRing .any ledDefs (2 ^ 64 - 1) true, ([0#8, 0x2c#8, 0x01#8, 7#8] ++ rest, [], [])) =
        .ret .resolved (b', (rest, [[.int 1, .int 300, .int 7]], [])) ∧ Pending b' [] ∧ Unread b' [0x33#8, 0x01#8] :=
  C44_request (led_setting .any) (led_start .any true _) (fresh_pending _ _ _ _ _ _) (i := 0) (by decide) (args := [.int 300, .int 7])
    (by simp [ledRing, Val.FitsAll, Val.Fits]) (led_fit true _ (List.getElem_mem _)) (src := demoSrc)
    (w1 := (rest, [], [])) (.cons rfl (.cons rfl (.cons rfl (.cons rfl (.nil _)))))

example (w : List Byte × List (List Val) × List Byte) :
    ∃ out, Unread (fresh pc ledRing .any ledDefs (2 ^ 64 - 1) true) out ∧ ∀ out', Unread (fresh pc ledRing .any ledDefs (2 ^ 64 - 1) true) out' → out' = out :=
  C45_unread (led_setting .any) (led_start .any true w)

example (b : Buf (List Byte × List (List Val) × List Byte)) (rest : List Byte)
    (he : Buf.readFrom pc demoSrc (fresh pc ledRing .any ledDefs (2 ^ 64 - 1) true, ([0#8, 0x2c#8, 0x01#8, 7#8] ++ rest, [], [])) =
      .ret .resolved (b, (rest, [[.int 1, .int 300, .int 7]], []))) (hu : Unread b [0x33#8, 0x01#8]) :
    ∃ b2, Buf.process pc demoSrc demoDest (fresh pc ledRing .any ledDefs (2 ^ 64 - 1) true, ([0#8, 0x2c#8, 0x01#8, 7#8] ++ rest, [], [])) =
      .ret .resolved (b2, (rest, [[.int 1, .int 300, .int 7]], [0x33#8, 0x01#8])) ∧ Unread b2 [] :=
  C48_resolved he hu (.cons rfl (.cons rfl (.nil _)))

example (rest : List Byte) (b1 : Buf (List Byte × List (List Val) × List Byte))
    (he : Buf.readFrom pc demoSrc (fresh pc ledRing .any ledDefs (2 ^ 64 - 1) false, ([9#8] ++ rest, [], [])) = .ret .dropped (b1, (rest, [], []))) :
    Buf.process pc demoSrc demoDest (fresh pc ledRing .any ledDefs (2 ^ 64 - 1) false, ([9#8] ++ rest, [], [])) = .ret .dropped (b1, (rest, [], [])) :=
  C48_not_resolved (led_setting .any) (led_start .any false _) he (by decide) demoDest

example (b b' : Buf (List Byte × List (List Val) × List Byte)) (w w' : _) (h : Unread b [0x33#8, 0x01#8])
    (he : Buf.reply pc storeKey 3 demoDest (b, w) = .ret true (b', w')) : b.obufNext = 0 :=
  (C49_true_only_if pc_valid storeKey_ok h he).1

example (b b' : Buf (List Byte × List (List Val) × List Byte)) (w w' : _) (h : Unread b [0x33#8, 0x01#8]) {y : Byte}
    (hg : Buf.get (b, w) = .ret y (b', w')) : y = 0x33#8 ∧ Buf.reply pc storeKey 3 demoDest (b', w') = .ret false (b', w') :=
  C49_after_get pc_valid storeKey_ok h hg demoDest w'

end Upd
