import Verif.Lemmas.Course
import Verif.Props.Interchange

/-!
# C113: the order of what is done

Sources, destinations and functions are arbitrary, may fail at any call, and are only watched: which calls are made, and in which order, does not depend on what they do, besides the bytes which they
give.
-/

namespace Upd
open Spec TypeList

variable {σ : Type} {P : Platform} {K : Keyring} {f : Features} {defs : Nat → List Val → Eff σ (Option Val)} {shared : Bool}

/-- C113, dispatchers without buffers. If `operator()` returns the index of a function, it has got the bytes of the index and of the arguments and no other, then called this function once and no
other, then given the bytes of its response. If it returns another index, it has only got the bytes of the index. If there is an exception, what has been done is the beginning of this. -/
theorem C113_unbuffered (hP : P.Valid) (hK : KeyringOk K) (hs : Supported P K.e K.s) (src : Eff σ Byte) (dest : Byte → Eff σ Unit) (w : σ) (tr : List Deed) :
    match (Dispatcher.make K f (watched defs)).run P (Lens.whole _) (watch .got src) (fun x => watch .gave (dest x)) (w, tr) with
    | .ret i (_, tr') => tr' = tr ++ match K.decls[i]? with | some d => servedCourse K d 0 | none => droppedCourse K 0
    | .threw (_, tr') => ∃ l, tr' = tr ++ l ∧ Begun K 0 l
    | .fault _ => True := by
  have h := does_run (f := f) (defs := defs) hP hK hs src dest w tr
  cases hr : (Dispatcher.make K f (watched defs)).run P (Lens.whole _) (watch .got src) (fun x => watch .gave (dest x)) (w, tr) with
  | ret i st => rw [hr] at h; obtain ⟨l, h1, h2⟩ := h; exact h1.trans (congrArg _ h2)
  | threw st => rw [hr] at h; exact h
  | fault g => trivial

/-- C113, `put`, in any reachable state: neither gets nor gives bytes; calls one function if it returns RESOLVED_PACKET or throws, none otherwise. -/
theorem C113_put (h : Setting P K f defs) {b : Buf (Watched σ)} {w : σ} {tr : List Deed} (hr : Reachable P K f (watched defs) shared (b, (w, tr))) (x : Byte) :
    match Buf.put P x (b, (w, tr)) with
    | .ret st (_, (_, tr')) => if st = .resolved then ∃ d ∈ K.decls, tr' = tr ++ [.called d.name] else tr' = tr
    | .threw (_, (_, tr')) => ∃ d ∈ K.decls, tr' = tr ++ [.called d.name]
    | .fault _ => True := by
  obtain ⟨hb, _, _, m, hm⟩ := reachable_inv (setting_watched h) hr
  rcases put_record h.valid hm.inp hb x w tr with ⟨b', h1, _⟩ | ⟨_, b', h1⟩ | ⟨d, hd, _, ⟨b', w', out, h1, _⟩ | ⟨b', w', h1⟩⟩ | ⟨g, h1⟩
  · rw [h1]; exact rfl
  · rw [h1]; exact rfl
  · rw [h1]; exact ⟨d, hd, rfl⟩
  · rw [h1]; exact ⟨d, hd, rfl⟩
  · rw [h1]; trivial

/-- C113, `read_from`, once the bytes `l` of a packet have been received: gets the other bytes of this packet and no other, then calls one function unless the index is unknown. Gives no byte. -/
theorem C113_read_from (h : Setting P K f defs) {b : Buf (Watched σ)} {w : σ} {tr : List Deed} (hr : Reachable P K f (watched defs) shared (b, (w, tr))) {l : List Byte} (hp : Pending b l)
    (src : Eff σ Byte) :
    match Buf.readFrom P (watch .got src) (b, (w, tr)) with
    | .ret st (_, (_, tr')) =>
      (st = .dropped ∧ tr' = tr ++ droppedCourse K l.length) ∨
      (st = .resolved ∧ ∃ d ∈ K.decls, tr' = tr ++ (List.replicate (K.idxBytes + wireSizes d.sig.params - l.length) .got ++ [.called d.name]))
    | .threw (_, (_, tr')) => ∃ t, tr' = tr ++ t ∧ Begun K l.length t
    | .fault _ => True := by
  obtain ⟨hb, _, _, out, hm⟩ := reachable_pending (setting_watched h) hr hp
  have hh := read_record h.valid src _ (Nat.le_refl _) hm.inp hb w tr
  cases he : Buf.readFrom P (watch .got src) (b, (w, tr)) with
  | fault g => trivial
  | threw st =>
    rw [he] at hh
    obtain ⟨t, h1, h2⟩ := hh
    exact ⟨t, h1, h2.begun⟩
  | ret st st' =>
    rw [he] at hh
    rcases hh with ⟨h1, _, h2⟩ | ⟨h1, d, hd, _, h2, _⟩
    · exact Or.inl ⟨h1, h2⟩
    · exact Or.inr ⟨h1, d, hd, h2⟩

/-- C113, `write_to`: gives the bytes which have not been read, and does nothing else; if there is an exception, not more than these. -/
theorem C113_write_to {ρ : Type} {b : Buf ρ} {out : List Byte} (hu : Unread b out) (dest : Byte → Eff σ Unit) (w : σ) (tr : List Deed) :
    match Buf.writeTo (fun x => watch .gave (dest x)) (b, (w, tr)) with
    | .ret _ (_, (_, tr')) => tr' = tr ++ List.replicate out.length .gave
    | .threw (_, (_, tr')) => ∃ k, k ≤ out.length ∧ tr' = tr ++ List.replicate k .gave
    | .fault _ => True := write_record dest hu w tr

/-- C113, `operator()` of buffered dispatchers, once the bytes `l` of a packet have been received: gets the other bytes of this packet, calls one function, gives the bytes of its response. If the
index is unknown, only gets the other bytes of the index. If there is an exception, what has been done is the beginning of this. -/
theorem C113_process (h : Setting P K f defs) {b : Buf (Watched σ)} {w : σ} {tr : List Deed} (hr : Reachable P K f (watched defs) shared (b, (w, tr))) {l : List Byte} (hp : Pending b l)
    (src : Eff σ Byte) (dest : Byte → Eff σ Unit) :
    match Buf.process P (watch .got src) (fun x => watch .gave (dest x)) (b, (w, tr)) with
    | .ret st (_, (_, tr')) =>
      (st = .dropped ∧ tr' = tr ++ droppedCourse K l.length) ∨ (st = .resolved ∧ ∃ d ∈ K.decls, tr' = tr ++ servedCourse K d l.length)
    | .threw (_, (_, tr')) => ∃ t, tr' = tr ++ t ∧ Begun K l.length t
    | .fault _ => True := by
  obtain ⟨hb, _, _, out, hm⟩ := reachable_pending (setting_watched h) hr hp
  have hh := read_record h.valid src _ (Nat.le_refl _) hm.inp hb w tr
  unfold Buf.process
  cases he : Buf.readFrom P (watch .got src) (b, (w, tr)) with
  | fault g => rw [Eff.bind_fault he]; trivial
  | threw st =>
    rw [Eff.bind_threw he]
    rw [he] at hh
    obtain ⟨t, h1, h2⟩ := hh
    exact ⟨t, h1, h2.begun⟩
  | ret st st' =>
    rw [Eff.bind_ret he]
    rw [he] at hh
    obtain ⟨b1, w1, tr1⟩ := st'
    rcases hh with ⟨rfl, _, h2⟩ | ⟨rfl, d, hd, hle, h2, out', hu, hl⟩
    · exact Or.inl ⟨rfl, h2⟩
    · simp only [if_true]
      have hw := write_record dest hu w1 tr1
      cases hx : Buf.writeTo (fun x => watch .gave (dest x)) (b1, (w1, tr1)) with
      | fault g => rw [Eff.bind_fault hx]; trivial
      | ret a st2 =>
        rw [Eff.bind_ret hx]
        rw [hx] at hw
        obtain ⟨b2, w2, tr2⟩ := st2
        have hw : tr2 = _ := hw
        refine Or.inr ⟨rfl, d, hd, ?_⟩
        show tr2 = _
        rw [hw, h2, hl, servedCourse]
        simp
      | threw st2 =>
        rw [Eff.bind_threw hx]
        rw [hx] at hw
        obtain ⟨b2, w2, tr2⟩ := st2
        obtain ⟨k, hk, hw⟩ := hw
        refine ⟨_, by rw [hw, h2, List.append_assoc], Or.inr ⟨d, hd, ?_⟩⟩
        rw [servedCourse, List.append_assoc, List.prefix_append_right_inj, List.singleton_append, List.prefix_cons_inj]
        exact replicate_prefix (by omega) _

/-- C113, clients: sending a request gives the bytes of the index and of the arguments, and does nothing else. -/
theorem C113_send {k : Key} (hk : SigOk k.sig) (args : List Val) (dest : Byte → Eff σ Unit) (w : σ) (tr : List Deed) :
    match k.writeTo P args (fun x => watch .gave (dest x)) (w, tr) with
    | .ret _ (_, tr') => tr' = tr ++ List.replicate (k.idxBytes + wireSizes k.sig.params) .gave
    | .threw (_, tr') => ∃ n, n ≤ k.idxBytes + wireSizes k.sig.params ∧ tr' = tr ++ List.replicate n .gave
    | .fault _ => True := by
  have hp : PackedAll (.uint k.idxBytes :: k.sig.params) := ⟨by simp [Packed], hk.2.1⟩
  have hd : Does (k.writeTo P args (fun x => watch .gave (dest x))) (fun _ l => l = List.replicate (k.idxBytes + wireSizes k.sig.params) .gave)
      (fun l => ∃ n, n ≤ k.idxBytes + wireSizes k.sig.params ∧ l = List.replicate n .gave) := by
    refine Does.bind (p := fun m l => l = [] ∧ m.length = k.idxBytes + wireSizes k.sig.params) (e := fun _ => False) (Does.lift fun m hm => ?_) (fun _ h => h.elim) fun m l hl => ?_
    · exact ⟨rfl, by rw [make_length hp hm]; simp [wireSizes, wireSize]⟩
    · obtain ⟨rfl, hl⟩ := hl
      rw [← hl]
      exact does_out dest m
  have h := hd w tr
  cases hr : k.writeTo P args (fun x => watch .gave (dest x)) (w, tr) with
  | ret i st => rw [hr] at h; obtain ⟨l, h1, rfl⟩ := h; exact h1
  | threw st => rw [hr] at h; obtain ⟨l, h1, n, h2, rfl⟩ := h; exact ⟨n, h2, h1⟩
  | fault g => trivial

/-- C113, clients: receiving a response gets the bytes of the result (none if there is no result), and does nothing else. -/
theorem C113_receive {k : Key} (hk : SigOk k.sig) (src : Eff σ Byte) (w : σ) (tr : List Deed) :
    match k.readFrom P (watch .got src) (w, tr) with
    | .ret _ (_, tr') => tr' = tr ++ List.replicate (retSize k.sig.ret) .got
    | .threw (_, tr') => ∃ n, n ≤ retSize k.sig.ret ∧ tr' = tr ++ List.replicate n .got
    | .fault _ => True := by
  have hd : Does (k.readFrom P (watch .got src)) (fun _ l => l = List.replicate (retSize k.sig.ret) .got) (fun l => ∃ n, n ≤ retSize k.sig.ret ∧ l = List.replicate n .got) := by
    unfold Key.readFrom
    match hg : k.sig.ret with
    | none => exact Does.pure rfl
    | some t =>
      have hp : PackedAll [t] := by simpa [PackedAll] using (hk.2.2 t hg).2
      have hsz : wireSizes [t] = retSize (some t) := by simp [wireSizes, retSize]
      have hr := does_readFrom (P := P) (e := k.e) (s := k.s) hp src
      rw [hsz] at hr
      refine Does.bind hr (fun _ h => h) fun m l hl => ?_
      subst hl
      refine Does.bind (Does.lift (post := fun _ l => l = []) (exc := fun _ => False) fun _ _ => rfl) (fun _ h => h.elim) fun v l hl => ?_
      subst hl
      exact Does.pure (by simp)
  have h := hd w tr
  cases hr : k.readFrom P (watch .got src) (w, tr) with
  | ret i st => rw [hr] at h; obtain ⟨l, h1, rfl⟩ := h; exact h1
  | threw st => rw [hr] at h; obtain ⟨l, h1, n, h2, rfl⟩ := h; exact ⟨n, h2, h1⟩
  | fault g => trivial

/-! ## Examples -/

/-- The first function of `ledRing`: four bytes, a call, two bytes. -/
example : servedCourse ledRing ⟨1, [.uint 2, .uint 1], some (.uint 2)⟩ 0 = [.got, .got, .got, .got, .called 1, .gave, .gave] := by decide +kernel

/-- A dispatcher without buffers: the source has six bytes, four of which are got. -/
example (f : Features) :
    (match (Dispatcher.make ledRing f (watched ledDefs)).run pc (Lens.whole _) (watch .got demoSrc) (fun x => watch .gave (demoDest x)) (([0, 5, 0, 1, 0, 0], [], []), []) with
    | .ret i (w, tr) => some (i, w.1, w.2.2, tr)
    | _ => none) = some (0, [0, 0], [6, 0], [.got, .got, .got, .got, .called 1, .gave, .gave]) := by cases f <;> decide +kernel

/-- An unknown index: one byte is got. -/
example (f : Features) :
    (match (Dispatcher.make ledRing f (watched ledDefs)).run pc (Lens.whole _) (watch .got demoSrc) (fun x => watch .gave (demoDest x)) (([7, 5, 0], [], []), []) with
    | .ret i (w, tr) => some (i, w.1, tr)
    | _ => none) = some (7, [5, 0], [.got]) := by cases f <;> decide +kernel

/-- A source which fails: the hypotheses of `C113_process` hold, and the conclusion is about two attempts. -/
example (f : Features) (shared : Bool) :
    match Buf.process pc (watch .got demoSrc) (fun x => watch .gave (demoDest x)) (fresh pc ledRing f (watched ledDefs) (2 ^ 64 - 1) shared, (([0], [], []), [])) with
    | .threw (_, (_, tr)) => tr = [.got, .got] ∧ Begun ledRing 0 tr
    | _ => False := by
  have h := C113_process (shared := shared) (led_setting f) (b := fresh pc ledRing f (watched ledDefs) (2 ^ 64 - 1) shared) (w := ([0], [], [])) (tr := []) ⟨_, _, .start⟩
    (fresh_pending _ _ _ _ _ _) demoSrc demoDest
  have hd : (match Buf.process pc (watch .got demoSrc) (fun x => watch .gave (demoDest x)) (fresh pc ledRing f (watched ledDefs) (2 ^ 64 - 1) shared, (([0], [], []), [])) with
    | .threw (_, (_, tr)) => some tr
    | _ => none) = some [.got, .got] := by cases f <;> cases shared <;> decide +kernel
  cases he : Buf.process pc (watch .got demoSrc) (fun x => watch .gave (demoDest x)) (fresh pc ledRing f (watched ledDefs) (2 ^ 64 - 1) shared, (([0], [], []), [])) with
  | ret a st => rw [he] at hd; cases hd
  | fault g => rw [he] at hd; cases hd
  | threw st =>
    rw [he] at hd h
    obtain ⟨t, h1, h2⟩ := h
    exact ⟨Option.some.inj hd, by rw [show st.2.2 = t from h1]; exact h2⟩

/-- Whatever the source and the destination, a new dispatcher does for a packet one of the courses of its functions, or drops the packet. -/
example (f : Features) (shared : Bool) (src : Eff _ Byte) (dest : Byte → Eff _ Unit) (w) :
    match Buf.process pc (watch .got src) (fun x => watch .gave (dest x)) (fresh pc ledRing f (watched ledDefs) (2 ^ 64 - 1) shared, (w, [])) with
    | .ret _ (_, (_, tr)) => tr = [.got] ∨ tr = [.got, .got, .got, .got, .called 1, .gave, .gave] ∨ tr = [.got, .called 2] ∨ tr = [.got, .got, .got, .called 3, .gave, .gave]
    | _ => True := by
  have h := C113_process (shared := shared) (led_setting f) (b := fresh pc ledRing f (watched ledDefs) (2 ^ 64 - 1) shared) (w := w) (tr := []) ⟨_, _, .start⟩ (fresh_pending _ _ _ _ _ _) src dest
  cases he : Buf.process pc (watch .got src) (fun x => watch .gave (dest x)) (fresh pc ledRing f (watched ledDefs) (2 ^ 64 - 1) shared, (w, [])) with
  | fault g => trivial
  | threw st => trivial
  | ret a st =>
    rw [he] at h
    rcases h with ⟨_, h⟩ | ⟨_, d, hd, h⟩
    · exact Or.inl h
    · simp only [ledRing, List.mem_cons, List.not_mem_nil, or_false] at hd
      rcases hd with rfl | rfl | rfl
      · exact Or.inr (Or.inl h)
      · exact Or.inr (Or.inr (Or.inl h))
      · exact Or.inr (Or.inr (Or.inr h))

/-- The keys of `ledRing` meet the hypotheses of `C113_send` and `C113_receive`. -/
example (dest : Byte → Eff σ Unit) (w : σ) :
    match (⟨.little, .twosComplement, 1, 0, ⟨[.uint 2, .uint 1], some (.uint 2)⟩⟩ : Key).writeTo pc [.int 5, .int 1] (fun x => watch .gave (dest x)) (w, []) with
    | .ret _ (_, tr) => tr = [.gave, .gave, .gave, .gave]
    | _ => True := by
  have hk : SigOk ⟨[.uint 2, .uint 1], some (.uint 2)⟩ := ledRing_ok.2 ⟨1, [.uint 2, .uint 1], some (.uint 2)⟩ (by simp [ledRing])
  have h := C113_send (P := pc) (k := ⟨.little, .twosComplement, 1, 0, ⟨[.uint 2, .uint 1], some (.uint 2)⟩⟩) hk [.int 5, .int 1] dest w []
  cases he : (⟨.little, .twosComplement, 1, 0, ⟨[.uint 2, .uint 1], some (.uint 2)⟩⟩ : Key).writeTo pc [.int 5, .int 1] (fun x => watch .gave (dest x)) (w, []) with
  | ret a st => rw [he] at h; exact h
  | threw st => trivial
  | fault g => trivial

end Upd
