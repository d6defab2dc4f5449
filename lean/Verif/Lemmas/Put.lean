import Verif.Lemmas.Buffered

namespace Upd
open Spec

variable {σ : Type}

/-- `b'` is `b` but for the state of the buffers. -/
structure Same (b b' : Buf σ) : Prop where
  disp : b'.disp = b.disp
  shared : b'.shared = b.shared
  ilen : b'.ibuf.length = b.ibuf.length
  olen : b'.obuf.length = b.obuf.length
  size : b'.sizeMax = b.sizeMax

theorem Same.refl (b : Buf σ) : Same b b := ⟨rfl, rfl, rfl, rfl, rfl⟩

theorem Same.trans {a b c : Buf σ} (h : Same a b) (h' : Same b c) : Same a c :=
  ⟨h'.disp.trans h.disp, h'.shared.trans h.shared, h'.ilen.trans h.ilen, h'.olen.trans h.olen, h'.size.trans h.size⟩

theorem Same.outLen {b b' : Buf σ} (h : Same b b') : b'.out.length = b.out.length := by
  unfold Buf.out
  rw [h.shared]
  split
  · exact h.ilen
  · exact h.olen

/-- The input buffer is large enough for every request of the protocol. -/
structure BufOk (P : Platform) (p : Proto σ) (b : Buf σ) : Prop where
  serves : Serves P p b.disp
  idxRoom : p.idxBytes ≤ b.ibuf.length
  room : ∀ cb ∈ p.cbs, p.idxBytes + wireSizes cb.sig.params ≤ b.ibuf.length

/-- The output buffer is large enough for every response of the protocol. -/
def OutRoom (p : Proto σ) (b : Buf σ) : Prop := ∀ cb ∈ p.cbs, retSize cb.sig.ret ≤ b.out.length

theorem BufOk.same {P : Platform} {p : Proto σ} {b b' : Buf σ} (h : BufOk P p b) (hs : Same b b') : BufOk P p b' :=
  ⟨by rw [hs.disp]; exact h.serves, by rw [hs.ilen]; exact h.idxRoom, by rw [hs.ilen]; exact h.room⟩

theorem OutRoom.same {p : Proto σ} {b b' : Buf σ} (h : OutRoom p b) (hs : Same b b') : OutRoom p b' := by
  intro cb hcb; rw [hs.outLen]; exact h cb hcb

/-- The input side of the state, in terms of the bytes received since the last packet. -/
structure RelIn (p : Proto σ) (b : Buf σ) (pending : List Byte) : Prop where
  next : b.ibufNext = pending.length
  le : pending.length ≤ b.ibuf.length
  bytes : slice b.ibuf 0 pending.length = pending
  load : (pending.length < p.idxBytes ∧ b.indexLoaded = false ∧ b.loadCount = p.idxBytes - pending.length) ∨
    (p.idxBytes ≤ pending.length ∧ b.indexLoaded = true ∧
      ∃ cb, p.cbs[wireValue p.e (pending.take p.idxBytes)]? = some cb ∧
        pending.length < p.idxBytes + wireSizes cb.sig.params ∧
        b.loadCount = p.idxBytes + wireSizes cb.sig.params - pending.length)

/-- The output side has not been touched. -/
structure OutSame (b b' : Buf σ) : Prop where
  obuf : b'.obuf = b.obuf
  next : b'.obufNext = b.obufNext
  bottom : b'.obufBottom = b.obufBottom

theorem unread_keep {b b' : Buf σ} {out : List Byte} (h : Unread b out) (hs : Same b b') (ho : OutSame b b')
    (hd : b.shared = true → out = []) : Unread b' out := by
  refine ⟨by rw [ho.next, ho.bottom]; exact h.bottom, by rw [ho.bottom, hs.outLen]; exact h.le, ?_⟩
  cases hsh : b.shared
  · have h1 : b'.out = b.out := by
      unfold Buf.out; rw [hs.shared, hsh]; exact ho.obuf
    rw [h1, ho.next]; exact h.bytes
  · rw [hd hsh]; exact slice_zero _ _

theorem finish_unread {b : Buf σ} {n : Nat} {resp : List Byte} (h : resp.length ≤ b.out.length) :
    Unread (b.finish n resp) resp := by
  have ho : (b.finish n resp).out = splice b.out 0 resp := by
    show (({ b with obufBottom := 0, obufNext := 0 } : Buf σ).pushAll resp).out = _
    rw [pushAll_out]; rfl
  have hn : (b.finish n resp).obufNext = 0 := by
    unfold Buf.finish Buf.pushAll; cases b.shared <;> rfl
  have hb : (b.finish n resp).obufBottom = resp.length := by
    show (({ b with obufBottom := 0, obufNext := 0 } : Buf σ).pushAll resp).obufBottom = _
    rw [pushAll_bottom]; exact Nat.zero_add _
  refine ⟨by rw [hn, hb, Nat.zero_add], by rw [hb, ho, splice_length (by omega)]; exact h, ?_⟩
  rw [hn, ho, slice_splice_same (by omega)]

theorem finish_same {b : Buf σ} {n : Nat} {resp : List Byte} (h : resp.length ≤ b.out.length) :
    Same b (b.finish n resp) := by
  unfold Buf.out at h
  unfold Buf.finish Buf.pushAll
  cases hs : b.shared
  · simp only [hs, Bool.false_eq_true, if_false] at h ⊢
    exact ⟨rfl, hs ▸ rfl, rfl, splice_length (by omega), rfl⟩
  · simp only [hs, if_true] at h ⊢
    exact ⟨rfl, hs ▸ rfl, splice_length (by omega), rfl, rfl⟩

theorem relIn_empty {p : Proto σ} {b : Buf σ} (hpos : 1 ≤ p.idxBytes) (h1 : b.ibufNext = 0) (h2 : b.indexLoaded = false)
    (h3 : b.loadCount = p.idxBytes) : RelIn p b [] :=
  ⟨h1, by simp, slice_zero _ _, Or.inl ⟨by simp; omega, h2, by simpa using h3⟩⟩

theorem finish_relIn {p : Proto σ} {b : Buf σ} {resp : List Byte} (hpos : 1 ≤ p.idxBytes) :
    RelIn p (b.finish p.idxBytes resp) [] := relIn_empty hpos rfl rfl rfl

/-- `ibuf_begin()[m_ibuf_next++] = byte; --m_load_count`. -/
def Buf.stored (b : Buf σ) (x : Byte) : Buf σ :=
  { b with ibuf := b.ibuf.set b.ibufNext x, ibufNext := b.ibufNext + 1, loadCount := b.loadCount - 1 }

theorem stored_same (b : Buf σ) (x : Byte) : Same b (b.stored x) := ⟨rfl, rfl, by simp [Buf.stored], rfl, rfl⟩

theorem stored_out (b : Buf σ) (x : Byte) : OutSame b (b.stored x) := ⟨rfl, rfl, rfl⟩

theorem slice_set_last {m : Mem} {n : Nat} {x : Byte} (h : n < m.length) : slice (m.set n x) 0 (n + 1) = slice m 0 n ++ [x] := by
  rw [slice_succ_last (by simpa using h)]
  simp [slice, List.take_set_of_le]

/-- There is room for the next byte. -/
theorem RelIn.lt {P : Platform} {p : Proto σ} {b : Buf σ} {pending : List Byte} (h : RelIn p b pending) (hb : BufOk P p b) :
    pending.length < b.ibuf.length := by
  rcases h.load with ⟨h1, _, _⟩ | ⟨_, _, cb, h1, h2, _⟩
  · have := hb.idxRoom; omega
  · have := hb.room cb (mem_of_get h1); omega

theorem RelIn.pos {p : Proto σ} {b : Buf σ} {pending : List Byte} (h : RelIn p b pending) : 0 < b.loadCount := by
  rcases h.load with ⟨h1, _, h2⟩ | ⟨_, _, cb, _, h1, h2⟩ <;> omega

theorem stored_bytes {P : Platform} {p : Proto σ} {b : Buf σ} {pending : List Byte} (h : RelIn p b pending)
    (hb : BufOk P p b) (x : Byte) : slice (b.stored x).ibuf 0 (pending.length + 1) = pending ++ [x] := by
  show slice (b.ibuf.set b.ibufNext x) 0 (pending.length + 1) = _
  rw [h.next, slice_set_last (h.lt hb), h.bytes]

/-- `put` once the byte has been stored. -/
theorem putWith_stored_raw {P : Platform} (call : Eff (BState σ) Unit) {b : Buf σ} (hroom : b.ibufNext < b.ibuf.length) (hpos : 0 < b.loadCount) (x : Byte) (w : σ) :
    Buf.putWith P call x (b, w) =
      (if (b.stored x).loadCount > 0 then pure .loading
      else if b.indexLoaded then do
        call
        pure .resolved
      else do
        let index ← withPtr (b.disp.getIndex P ibufSrc)
        if index < b.disp.size then do
          let a ← Eff.lift (b.disp.at index)
          let n ← Eff.lift a.inputSize
          modifyBuf fun b => { b with loadCount := n, indexLoaded := true }
          if n = 0 then do
            call
            pure .resolved
          else pure .loading
        else do
          modifyBuf fun b => { b with loadCount := b.disp.idxBytes, ibufNext := 0 }
          pure .dropped : Eff (BState σ) Status) (b.stored x, w) := by
  have hp : b.pushIn x = .ok { b with ibuf := b.ibuf.set b.ibufNext x, ibufNext := b.ibufNext + 1 } := by
    unfold Buf.pushIn
    rw [if_pos hroom]
  have hd : decSize b.sizeMax b.loadCount = b.loadCount - 1 := by
    unfold decSize
    rw [if_neg (by omega)]
  unfold Buf.putWith
  show (Eff.lift (b.pushIn x) >>= _) (b, w) = _
  rw [hp, Eff.lift_ok, pure_bind]
  simp only [hd]
  rfl

theorem put_stored_raw {P : Platform} {b : Buf σ} (hroom : b.ibufNext < b.ibuf.length) (hpos : 0 < b.loadCount) (x : Byte) (w : σ) :
    Buf.put P x (b, w) =
      (if (b.stored x).loadCount > 0 then pure .loading
      else if b.indexLoaded then do
        Buf.call P
        pure .resolved
      else do
        let index ← withPtr (b.disp.getIndex P ibufSrc)
        if index < b.disp.size then do
          let a ← Eff.lift (b.disp.at index)
          let n ← Eff.lift a.inputSize
          modifyBuf fun b => { b with loadCount := n, indexLoaded := true }
          if n = 0 then do
            Buf.call P
            pure .resolved
          else pure .loading
        else do
          modifyBuf fun b => { b with loadCount := b.disp.idxBytes, ibufNext := 0 }
          pure .dropped : Eff (BState σ) Status) (b.stored x, w) :=
  putWith_stored_raw (Buf.call P) hroom hpos x w

theorem put_stored {P : Platform} {p : Proto σ} {b : Buf σ} {pending : List Byte} (h : RelIn p b pending)
    (hb : BufOk P p b) (x : Byte) (w : σ) :
    Buf.put P x (b, w) =
      (if (b.stored x).loadCount > 0 then pure .loading
      else if b.indexLoaded then do
        Buf.call P
        pure .resolved
      else do
        let index ← withPtr (b.disp.getIndex P ibufSrc)
        if index < b.disp.size then do
          let a ← Eff.lift (b.disp.at index)
          let n ← Eff.lift a.inputSize
          modifyBuf fun b => { b with loadCount := n, indexLoaded := true }
          if n = 0 then do
            Buf.call P
            pure .resolved
          else pure .loading
        else do
          modifyBuf fun b => { b with loadCount := b.disp.idxBytes, ibufNext := 0 }
          pure .dropped : Eff (BState σ) Status) (b.stored x, w) :=
  put_stored_raw (by rw [h.next]; exact h.lt hb) h.pos x w

theorem take_append_le {l : List Byte} {n : Nat} (h : n ≤ l.length) (x : Byte) : (l ++ [x]).take n = l.take n := by
  rw [List.take_append_of_le_length h]

/-- `put` of a byte which does not complete a packet, when there is room for this byte. -/
theorem putWith_more_room {P : Platform} (hP : P.Valid) (call : Eff (BState σ) Unit) {p : Proto σ} {b : Buf σ} {pending : List Byte} (h : RelIn p b pending)
    (hb : Serves P p b.disp) (hlt : pending.length < b.ibuf.length) {x : Byte} (hc : p.classify (pending ++ [x]) = .more) :
    ∃ b', (∀ w, Buf.putWith P call x (b, w) = .ret .loading (b', w)) ∧ RelIn p b' (pending ++ [x]) ∧ Same b b' ∧ OutSame b b' ∧
      b'.ibuf = b.ibuf.set b.ibufNext x := by
  have hroom : b.ibufNext < b.ibuf.length := by rw [h.next]; exact hlt
  have hbytes : slice (b.stored x).ibuf 0 (pending.length + 1) = pending ++ [x] := by
    show slice (b.ibuf.set b.ibufNext x) 0 (pending.length + 1) = _
    rw [h.next, slice_set_last hlt, h.bytes]
  have hlen : (pending ++ [x]).length = pending.length + 1 := by simp
  have hle : pending.length + 1 ≤ (b.stored x).ibuf.length := by rw [(stored_same b x).ilen]; omega
  have hnext : (b.stored x).ibufNext = pending.length + 1 := by show b.ibufNext + 1 = _; rw [h.next]
  have hlc : (b.stored x).loadCount = b.loadCount - 1 := rfl
  unfold Proto.classify at hc
  rw [hlen] at hc
  rcases h.load with ⟨h1, h2, h3⟩ | ⟨h1, h2, cb, h3, h4, h5⟩
  · by_cases hi : pending.length + 1 < p.idxBytes
    · exact ⟨b.stored x, fun w => by rw [putWith_stored_raw call hroom h.pos, if_pos (by rw [hlc]; omega)]; rfl, ⟨by rw [hnext, hlen], by rw [hlen]; exact hle, by rw [hlen]; exact hbytes,
        Or.inl ⟨by omega, h2, by rw [hlc, hlen]; omega⟩⟩, stored_same b x, stored_out b x, rfl⟩
    · have hi' : pending.length + 1 = p.idxBytes := by omega
      rw [if_neg hi] at hc
      have hgi := fun w => getIndex_buf hP hb (b := b.stored x) (w := w) (by omega)
      rw [← hi', hbytes] at hgi
      have htake : (pending ++ [x]).take p.idxBytes = pending ++ [x] := List.take_of_length_le (by simp; omega)
      rw [htake] at hc
      cases hcb : p.cbs[wireValue p.e (pending ++ [x])]? with
      | none => rw [hcb] at hc; cases hc
      | some cb =>
        simp only [hcb] at hc
        have hn : 0 < wireSizes cb.sig.params := by
          by_cases h0 : wireSizes cb.sig.params = 0
          · rw [if_neg (by omega)] at hc; cases hc
          · omega
        obtain ⟨a, ha, _, hin⟩ := hb.act _ _ hcb
        have hlt' : wireValue p.e (pending ++ [x]) < b.disp.size := by
          rw [hb.size]; exact (List.getElem?_eq_some_iff.1 hcb).1
        refine ⟨{ b.stored x with loadCount := wireSizes cb.sig.params, indexLoaded := true }, ?_, ?_, ?_, ?_, rfl⟩
        · intro w
          rw [putWith_stored_raw call hroom h.pos, if_neg (by rw [hlc]; omega), if_neg (by rw [h2]; simp), Eff.bind_ret (withPtr_ret (hgi w)),
            if_pos hlt', at_eq ha, Eff.lift_ok, pure_bind, hin, Eff.lift_ok, pure_bind, if_neg (by omega)]
          rfl
        · refine ⟨by rw [hlen]; exact hnext, by rw [hlen]; exact hle, by rw [hlen]; exact hbytes, Or.inr ?_⟩
          refine ⟨by omega, rfl, cb, by rw [htake]; exact hcb, by omega, ?_⟩
          show wireSizes cb.sig.params = _
          omega
        · exact ⟨rfl, rfl, (stored_same b x).ilen, rfl, rfl⟩
        · exact ⟨rfl, rfl, rfl⟩
  · rw [if_neg (by omega), take_append_le h1, h3] at hc
    have hm : pending.length + 1 < p.idxBytes + wireSizes cb.sig.params := by
      by_cases h0 : pending.length + 1 < p.idxBytes + wireSizes cb.sig.params
      · exact h0
      · simp only [if_neg h0] at hc; cases hc
    exact ⟨b.stored x, fun w => by rw [putWith_stored_raw call hroom h.pos, if_pos (by rw [hlc]; omega)]; rfl, ⟨by rw [hnext, hlen], by rw [hlen]; exact hle, by rw [hlen]; exact hbytes,
      Or.inr ⟨by omega, h2, cb, by rw [take_append_le h1]; exact h3, by omega, by rw [hlc, hlen]; omega⟩⟩,
      stored_same b x, stored_out b x, rfl⟩

/-- `put` of a byte which does not complete a packet, when there is room for this byte. -/
theorem put_more_room {P : Platform} (hP : P.Valid) {p : Proto σ} {b : Buf σ} {pending : List Byte} (h : RelIn p b pending)
    (hb : Serves P p b.disp) (hlt : pending.length < b.ibuf.length) {x : Byte} (hc : p.classify (pending ++ [x]) = .more) :
    ∃ b', (∀ w, Buf.put P x (b, w) = .ret .loading (b', w)) ∧ RelIn p b' (pending ++ [x]) ∧ Same b b' ∧ OutSame b b' := by
  obtain ⟨b', h1, h2, h3, h4, _⟩ := putWith_more_room hP (Buf.call P) h hb hlt hc
  exact ⟨b', h1, h2, h3, h4⟩

theorem put_more_all {P : Platform} (hP : P.Valid) {p : Proto σ} {b : Buf σ} {pending : List Byte} (h : RelIn p b pending)
    (hb : BufOk P p b) {x : Byte} (hc : p.classify (pending ++ [x]) = .more) :
    ∃ b', (∀ w, Buf.put P x (b, w) = .ret .loading (b', w)) ∧ RelIn p b' (pending ++ [x]) ∧ Same b b' ∧ OutSame b b' :=
  put_more_room hP h hb.serves (h.lt hb) hc

theorem put_more {P : Platform} (hP : P.Valid) {p : Proto σ} {b : Buf σ} {pending : List Byte} (h : RelIn p b pending)
    (hb : BufOk P p b) {x : Byte} (hc : p.classify (pending ++ [x]) = .more) (w : σ) :
    ∃ b', Buf.put P x (b, w) = .ret .loading (b', w) ∧ RelIn p b' (pending ++ [x]) ∧ Same b b' ∧ OutSame b b' := by
  obtain ⟨b', h1, h2⟩ := put_more_all hP h hb hc
  exact ⟨b', h1 w, h2⟩

theorem putWith_bad {P : Platform} (hP : P.Valid) (call : Eff (BState σ) Unit) {p : Proto σ} {b : Buf σ} {pending : List Byte} (h : RelIn p b pending)
    (hb : BufOk P p b) {x : Byte} (hc : p.classify (pending ++ [x]) = .bad) (w : σ) :
    ∃ b', Buf.putWith P call x (b, w) = .ret .dropped (b', w) ∧ RelIn p b' [] ∧ Same b b' ∧ OutSame b b' ∧
      b'.ibuf = b.ibuf.set b.ibufNext x := by
  have hbytes := stored_bytes h hb x
  have hlen : (pending ++ [x]).length = pending.length + 1 := by simp
  have hle : pending.length + 1 ≤ (b.stored x).ibuf.length := by rw [(stored_same b x).ilen]; have := h.lt hb; omega
  have hlc : (b.stored x).loadCount = b.loadCount - 1 := rfl
  rw [putWith_stored_raw call (by rw [h.next]; exact h.lt hb) h.pos]
  unfold Proto.classify at hc
  rw [hlen] at hc
  rcases h.load with ⟨h1, h2, h3⟩ | ⟨h1, h2, cb, h3, h4, h5⟩
  · by_cases hi : pending.length + 1 < p.idxBytes
    · rw [if_pos hi] at hc; cases hc
    · have hi' : pending.length + 1 = p.idxBytes := by omega
      rw [if_neg hi] at hc
      rw [if_neg (by rw [hlc]; omega), if_neg (by rw [h2]; simp)]
      have hgi := getIndex_buf hP hb.serves (b := b.stored x) (w := w) (by omega)
      rw [← hi', hbytes] at hgi
      have htake : (pending ++ [x]).take p.idxBytes = pending ++ [x] := List.take_of_length_le (by simp; omega)
      rw [htake] at hc
      cases hcb : p.cbs[wireValue p.e (pending ++ [x])]? with
      | some cb => simp only [hcb] at hc; split at hc <;> cases hc
      | none =>
        have hge : ¬ wireValue p.e (pending ++ [x]) < b.disp.size := by
          rw [hb.serves.size]; have := List.getElem?_eq_none_iff.1 hcb; omega
        rw [Eff.bind_ret (withPtr_ret hgi), if_neg hge]
        refine ⟨{ b.stored x with loadCount := b.disp.idxBytes, ibufNext := 0 }, rfl, ?_, ?_, ?_, rfl⟩
        · exact relIn_empty hb.serves.pos rfl h2 hb.serves.idx
        · exact ⟨rfl, rfl, (stored_same b x).ilen, rfl, rfl⟩
        · exact ⟨rfl, rfl, rfl⟩
  · rw [if_neg (by omega), take_append_le h1, h3] at hc
    simp only at hc
    split at hc <;> cases hc

theorem put_bad {P : Platform} (hP : P.Valid) {p : Proto σ} {b : Buf σ} {pending : List Byte} (h : RelIn p b pending)
    (hb : BufOk P p b) {x : Byte} (hc : p.classify (pending ++ [x]) = .bad) (w : σ) :
    ∃ b', Buf.put P x (b, w) = .ret .dropped (b', w) ∧ RelIn p b' [] ∧ Same b b' ∧ OutSame b b' := by
  obtain ⟨b', h1, h2, h3, h4, _⟩ := putWith_bad hP (Buf.call P) h hb hc w
  exact ⟨b', h1, h2, h3, h4⟩

/-- The state in which `put` calls the action. -/
def Buf.loaded (b : Buf σ) (x : Byte) : Buf σ := { b.stored x with loadCount := 0, indexLoaded := true }

/-- `put` which completes a request, before the call. -/
theorem putWith_request_full {P : Platform} (hP : P.Valid) (call : Eff (BState σ) Unit) {p : Proto σ} {b : Buf σ} {pending : List Byte} (h : RelIn p b pending)
    (hb : BufOk P p b) {x : Byte} {cb : Callback σ} {args : List Byte} (hc : p.classify (pending ++ [x]) = .request cb args)
    (w : σ) :
    cb ∈ p.cbs ∧ args.length = wireSizes cb.sig.params ∧
    Buf.putWith P call x (b, w) = (call >>= fun _ => pure .resolved) (b.loaded x, w) ∧
      p.cbs[wireValue p.e (slice (b.loaded x).ibuf 0 p.idxBytes)]? = some cb ∧
      slice (b.loaded x).ibuf p.idxBytes (wireSizes cb.sig.params) = args := by
  have hbytes := stored_bytes h hb x
  have hlen : (pending ++ [x]).length = pending.length + 1 := by simp
  have hle : pending.length + 1 ≤ (b.stored x).ibuf.length := by rw [(stored_same b x).ilen]; have := h.lt hb; omega
  have hlc : (b.stored x).loadCount = b.loadCount - 1 := rfl
  have hsl : ∀ n, p.idxBytes + n = pending.length + 1 →
      slice (b.stored x).ibuf 0 p.idxBytes = (pending ++ [x]).take p.idxBytes ∧
      slice (b.stored x).ibuf p.idxBytes n = (pending ++ [x]).drop p.idxBytes := by
    intro n hn
    rw [← hbytes, slice_take (by omega), slice_drop]
    refine ⟨rfl, ?_⟩
    rw [Nat.zero_add, show pending.length + 1 - p.idxBytes = n by omega]
  rw [putWith_stored_raw call (by rw [h.next]; exact h.lt hb) h.pos]
  unfold Proto.classify at hc
  rw [hlen] at hc
  rcases h.load with ⟨h1, h2, h3⟩ | ⟨h1, h2, cb', h3, h4, h5⟩
  · by_cases hi : pending.length + 1 < p.idxBytes
    · rw [if_pos hi] at hc; cases hc
    · have hi' : pending.length + 1 = p.idxBytes := by omega
      rw [if_neg hi] at hc
      rw [if_neg (by rw [hlc]; omega), if_neg (by rw [h2]; simp)]
      have hgi := getIndex_buf hP hb.serves (b := b.stored x) (w := w) (by omega)
      rw [← hi', hbytes] at hgi
      have htake : (pending ++ [x]).take p.idxBytes = pending ++ [x] := List.take_of_length_le (by simp; omega)
      rw [htake] at hc
      cases hcb : p.cbs[wireValue p.e (pending ++ [x])]? with
      | none => rw [hcb] at hc; cases hc
      | some cb' =>
        simp only [hcb] at hc
        split at hc
        · cases hc
        rename_i hge
        injection hc with hc1 hc2
        subst hc1
        obtain ⟨a, ha, _, hin⟩ := hb.serves.act _ _ hcb
        have hlt : wireValue p.e (pending ++ [x]) < b.disp.size := by
          rw [hb.serves.size]; exact (List.getElem?_eq_some_iff.1 hcb).1
        have h0 : wireSizes cb'.sig.params = 0 := by omega
        obtain ⟨hs1, hs2⟩ := hsl (wireSizes cb'.sig.params) (by omega)
        rw [Eff.bind_ret (withPtr_ret hgi), if_pos hlt, at_eq ha, Eff.lift_ok, pure_bind, hin, Eff.lift_ok, pure_bind,
          if_pos h0]
        refine ⟨mem_of_get hcb, by rw [← hc2, List.length_drop]; omega, by rw [h0]; rfl, ?_, ?_⟩
        · show p.cbs[wireValue p.e (slice (b.stored x).ibuf 0 p.idxBytes)]? = _
          rw [hs1, htake]; exact hcb
        · show slice (b.stored x).ibuf _ _ = _
          rw [hs2]; exact hc2
  · rw [if_neg (by omega), take_append_le h1, h3] at hc
    simp only at hc
    split at hc
    · cases hc
    rename_i hge
    injection hc with hc1 hc2
    subst hc1
    obtain ⟨hs1, hs2⟩ := hsl (wireSizes cb'.sig.params) (by omega)
    rw [if_neg (by rw [hlc]; omega), if_pos h2]
    have hst : b.loaded x = b.stored x := by
      have h6 : (b.stored x).loadCount = 0 := by rw [hlc]; omega
      have h7 : (b.stored x).indexLoaded = true := h2
      unfold Buf.loaded
      rw [← h6, ← h7]
    rw [hst]
    refine ⟨mem_of_get h3, by rw [← hc2, List.length_drop]; omega, rfl, ?_, ?_⟩
    · rw [hs1, take_append_le h1]; exact h3
    · rw [hs2]; exact hc2

theorem put_request_full {P : Platform} (hP : P.Valid) {p : Proto σ} {b : Buf σ} {pending : List Byte} (h : RelIn p b pending)
    (hb : BufOk P p b) {x : Byte} {cb : Callback σ} {args : List Byte} (hc : p.classify (pending ++ [x]) = .request cb args)
    (w : σ) :
    cb ∈ p.cbs ∧ args.length = wireSizes cb.sig.params ∧
    ∃ b', Buf.put P x (b, w) = (Buf.call P >>= fun _ => pure .resolved) (b', w) ∧ Same b b' ∧
      p.cbs[wireValue p.e (slice b'.ibuf 0 p.idxBytes)]? = some cb ∧
      slice b'.ibuf p.idxBytes (wireSizes cb.sig.params) = args ∧
      b'.loadCount = 0 ∧ b'.ibufNext = pending.length + 1 ∧ b'.indexLoaded = true := by
  obtain ⟨h1, h2, h3, h4, h5⟩ := putWith_request_full hP (Buf.call P) h hb hc w
  exact ⟨h1, h2, b.loaded x, h3, ⟨rfl, rfl, (stored_same b x).ilen, rfl, rfl⟩, h4, h5, rfl, congrArg (· + 1) h.next, rfl⟩

theorem put_request {P : Platform} (hP : P.Valid) {p : Proto σ} {b : Buf σ} {pending : List Byte} (h : RelIn p b pending)
    (hb : BufOk P p b) {x : Byte} {cb : Callback σ} {args : List Byte} (hc : p.classify (pending ++ [x]) = .request cb args)
    (w : σ) :
    cb ∈ p.cbs ∧ args.length = wireSizes cb.sig.params ∧
    ∃ b', Buf.put P x (b, w) = (Buf.call P >>= fun _ => pure .resolved) (b', w) ∧ Same b b' ∧
      p.cbs[wireValue p.e (slice b'.ibuf 0 p.idxBytes)]? = some cb ∧
      slice b'.ibuf p.idxBytes (wireSizes cb.sig.params) = args := by
  obtain ⟨h1, h2, b', h3, h4, h5, h6, _⟩ := put_request_full hP h hb hc w
  exact ⟨h1, h2, b', h3, h4, h5, h6⟩

/-- `put` which completes a request. -/
theorem put_request_eq_full {P : Platform} (hP : P.Valid) {p : Proto σ} {b : Buf σ} {pending : List Byte} (h : RelIn p b pending)
    (hb : BufOk P p b) {x : Byte} {cb : Callback σ} {args : List Byte} (hc : p.classify (pending ++ [x]) = .request cb args)
    (hdec : Decodes P p cb args) (w : σ) :
    ∃ b', (Same b b' ∧ b'.loadCount = 0 ∧ b'.ibufNext = pending.length + 1 ∧ b'.indexLoaded = true) ∧ Buf.put P x (b, w) =
      match cb.fn (unwires p.e p.s cb.sig.params args) w with
      | .ret r w' =>
        if (response p.e p.s cb.sig.ret r).length ≤ b'.out.length then
          .ret .resolved (b'.finish p.idxBytes (response p.e p.s cb.sig.ret r), w')
        else .fault .obufOverrun
      | .threw w' => .threw ({ b' with obufBottom := 0, obufNext := 0 }, w')
      | .fault f => .fault f := by
  obtain ⟨hm, _, b', h1, h2, h3, h4, h5⟩ := put_request_full hP h hb hc w
  have hb' := hb.same h2
  refine ⟨b', ⟨h2, h5⟩, ?_⟩
  have hcall := call_buf hP hb'.serves h3 (hb'.room cb hm) (by rw [h4]; exact hdec) w
  rw [h4] at hcall
  rw [h1]
  cases hfn : cb.fn (unwires p.e p.s cb.sig.params args) w with
  | fault f => rw [hfn] at hcall; rw [Eff.bind_fault hcall]
  | threw w' => rw [hfn] at hcall; rw [Eff.bind_threw hcall]
  | ret r w' =>
    rw [hfn] at hcall
    simp only at hcall ⊢
    split at hcall
    · rename_i hf; rw [if_pos hf, Eff.bind_ret hcall]; rfl
    · rename_i hf; rw [if_neg hf, Eff.bind_fault hcall]

theorem put_request_eq {P : Platform} (hP : P.Valid) {p : Proto σ} {b : Buf σ} {pending : List Byte} (h : RelIn p b pending)
    (hb : BufOk P p b) {x : Byte} {cb : Callback σ} {args : List Byte} (hc : p.classify (pending ++ [x]) = .request cb args)
    (hdec : Decodes P p cb args) (w : σ) :
    ∃ b', Same b b' ∧ Buf.put P x (b, w) =
      match cb.fn (unwires p.e p.s cb.sig.params args) w with
      | .ret r w' =>
        if (response p.e p.s cb.sig.ret r).length ≤ b'.out.length then
          .ret .resolved (b'.finish p.idxBytes (response p.e p.s cb.sig.ret r), w')
        else .fault .obufOverrun
      | .threw w' => .threw ({ b' with obufBottom := 0, obufNext := 0 }, w')
      | .fault f => .fault f := by
  obtain ⟨b', h1, h2⟩ := put_request_eq_full hP h hb hc hdec w
  exact ⟨b', h1.1, h2⟩

/-- The whole state, in terms of the state of the machine. -/
structure Rel (p : Proto σ) (b : Buf σ) (m : Machine) : Prop where
  inp : RelIn p b m.pending
  outp : Unread b m.out

theorem response_length {P : Platform} {e : Endian} {s : Mode} {g : Sig} (hg : SigOk g) {r : Option Val}
    (hr : RetOk P s g.ret r) : (response e s g.ret r).length = retSize g.ret := by
  cases h : g.ret with
  | none => rw [h] at hr; cases r <;> simp_all [RetOk, response, retSize]
  | some t =>
    rw [h] at hr
    cases r with
    | none => simp [RetOk] at hr
    | some v => exact wire_length (hg.2.2 t h).2 hr

/-- Simulation of `put` by the machine. -/
theorem put_sim {P : Platform} (hP : P.Valid) {p : Proto σ} {b : Buf σ} {m : Machine} (h : Rel p b m) (hb : BufOk P p b)
    (ho : OutRoom p b) (hd : b.shared = true → m.out = []) {x : Byte}
    (hdec : ∀ cb args, p.classify (m.pending ++ [x]) = .request cb args → Decodes P p cb args) (w : σ) :
    match Machine.put p x (m, w) with
    | .ret st (m', w') => ∃ b', Buf.put P x (b, w) = .ret st (b', w') ∧ Rel p b' m' ∧ Same b b'
    | .threw (_, w') => ∃ b', Buf.put P x (b, w) = .threw (b', w')
    | .fault f => Buf.put P x (b, w) = .fault f := by
  unfold Machine.put
  simp only
  cases hc : p.classify (m.pending ++ [x]) with
  | more =>
    obtain ⟨b', h1, h2, h3, h4⟩ := put_more hP h.inp hb hc w
    exact ⟨b', h1, ⟨h2, unread_keep h.outp h3 h4 hd⟩, h3⟩
  | bad =>
    obtain ⟨b', h1, h2, h3, h4⟩ := put_bad hP h.inp hb hc w
    exact ⟨b', h1, ⟨h2, unread_keep h.outp h3 h4 hd⟩, h3⟩
  | request cb args =>
    obtain ⟨hm, _⟩ := put_request hP h.inp hb hc w
    have hdec := hdec cb args hc
    obtain ⟨b', h2, h1⟩ := put_request_eq hP h.inp hb hc hdec w
    simp only
    cases hfn : cb.fn (unwires p.e p.s cb.sig.params args) w with
    | fault f => rw [hfn] at h1; exact h1
    | threw w' => rw [hfn] at h1; exact ⟨_, h1⟩
    | ret r w' =>
      rw [hfn] at h1
      have hr := hb.serves.typed cb hm _ _ _ _ hdec.2 hfn
      have hfit : (response p.e p.s cb.sig.ret r).length ≤ b'.out.length := by
        rw [response_length (hb.serves.sig cb hm) hr]; exact ho.same h2 cb hm
      simp only at h1
      rw [if_pos hfit] at h1
      exact ⟨_, h1, ⟨finish_relIn hb.serves.pos, finish_unread hfit⟩, h2.trans (finish_same hfit)⟩

theorem unread_isLoaded {b : Buf σ} {out : List Byte} (h : Unread b out) : b.isLoaded = !out.isEmpty := by
  have := h.bottom
  unfold Buf.isLoaded
  cases out with
  | nil => simp at this ⊢; omega
  | cons x out => simp at this ⊢; omega

/-- Simulation of `get` by the machine. -/
theorem get_empty {ω : Type} {b : Buf σ} (h : Unread b []) (w : ω) : Buf.get (b, w) = .ret 0#8 (b, w) := by
  unfold Buf.get
  rw [show (b, w).1.isLoaded = false from unread_isLoaded h]
  rfl

theorem get_cons {ω : Type} {b : Buf σ} {x : Byte} {out : List Byte} (h : Unread b (x :: out)) (w : ω) :
    ∃ b', Buf.get (b, w) = .ret x (b', w) ∧ Unread b' out ∧ Same b b' ∧ b' = { b with obufNext := b.obufNext + 1 } := by
  have hb := h.bottom
  have hl := h.le
  have hbs := h.bytes
  simp only [List.length_cons] at hb hbs
  rw [slice_succ (by omega)] at hbs
  injection hbs with hx hbs
  have hp : b.popOut = .ok (x, { b with obufNext := b.obufNext + 1 }) := by
    unfold Buf.popOut
    rw [List.getElem?_eq_getElem (by omega), hx]
  refine ⟨{ b with obufNext := b.obufNext + 1 }, ?_, ?_, ⟨rfl, rfl, rfl, rfl, rfl⟩, rfl⟩
  · unfold Buf.get
    rw [show (b, w).1.isLoaded = true from unread_isLoaded h]
    simp only [if_true, hp]
  · exact ⟨by show b.obufNext + 1 + _ = b.obufBottom; omega, hl, hbs⟩

end Upd
