import Verif.Lemmas.Reach

/-! Helper lemmas: putting the bytes of a whole packet. -/

namespace Upd
open Spec TypeList

variable {σ : Type}

/-! ## `classify` -/

theorem classify_more_iff {p : Proto σ} {l : List Byte} : p.classify l = .more ↔ Incomplete p l := by
  unfold Proto.classify Incomplete
  by_cases h : l.length < p.idxBytes
  · simp [h]
  · simp only [h, if_false, false_or]
    cases hc : p.cbs[wireValue p.e (l.take p.idxBytes)]? with
    | none => simp
    | some cb => simp

/-- The beginning of the beginning of a packet is one too. -/
theorem incomplete_prefix {p : Proto σ} {l l' : List Byte} (h : Incomplete p (l ++ l')) : Incomplete p l := by
  by_cases hl : l.length < p.idxBytes
  · exact Or.inl hl
  · right
    rcases h with h | ⟨cb, h1, h2⟩
    · simp at h; omega
    · rw [List.take_append_of_le_length (by omega)] at h1
      exact ⟨cb, h1, by simp at h2; omega⟩

theorem classify_bad {p : Proto σ} {index : List Byte} (hl : index.length = p.idxBytes)
    (h : p.cbs[wireValue p.e index]? = none) : p.classify index = .bad := by
  unfold Proto.classify
  rw [if_neg (by omega), ← hl, List.take_length, h]

theorem classify_call {p : Proto σ} {cb : Callback σ} {index args : List Byte} (hl : index.length = p.idxBytes)
    (h : p.cbs[wireValue p.e index]? = some cb) (ha : args.length = wireSizes cb.sig.params) :
    p.classify (index ++ args) = .request cb args := by
  unfold Proto.classify
  rw [if_neg (by simp; omega), ← hl, List.take_left, h]
  simp only
  rw [if_neg (by simp; omega), List.drop_left]

/-- A beginning of a whole packet is incomplete. -/
theorem incomplete_call {p : Proto σ} {cb : Callback σ} {index args l l' : List Byte} (hl : index.length = p.idxBytes)
    (h : p.cbs[wireValue p.e index]? = some cb) (ha : args.length = wireSizes cb.sig.params)
    (he : index ++ args = l ++ l') (hne : l' ≠ []) : Incomplete p l := by
  have hlen : index.length + args.length = l.length + l'.length := by simpa using congrArg List.length he
  have hpos : 0 < l'.length := List.length_pos_iff.2 hne
  by_cases hs : l.length < p.idxBytes
  · exact Or.inl hs
  · refine Or.inr ⟨cb, ?_, by omega⟩
    have h1 : l.take p.idxBytes = index := by
      rw [← List.take_append_of_le_length (l₂ := l') (by omega), ← he, ← hl, List.take_left]
    rw [h1]; exact h

/-! ## Pending bytes -/

theorem relIn_pending {p : Proto σ} {b : Buf σ} {l bs : List Byte} (h : RelIn p b l) (hp : Pending b bs) : l = bs := by
  have hl : l.length = bs.length := by rw [← h.next, hp.next]
  rw [← h.bytes, ← hp.bytes, hl]

theorem pending_relIn {p : Proto σ} {b : Buf σ} {l : List Byte} (h : RelIn p b l) : Pending b l := ⟨h.next, h.bytes⟩

theorem unread_unique {b : Buf σ} {out out' : List Byte} (h : Unread b out) (h' : Unread b out') : out = out' := by
  have hl : out.length = out'.length := by have := h.bottom; have := h'.bottom; omega
  rw [← h.bytes, ← h'.bytes, hl]

theorem readable_decodes {P : Platform} (hP : P.Valid) {p : Proto σ} (hs : Supported P p.e p.s) {cb : Callback σ}
    (hg : SigOk cb.sig) {bs : List Byte} (hl : bs.length = wireSizes cb.sig.params) (h : Readable P p cb bs) :
    Decodes P p cb bs := by
  rcases h with h | ⟨args, hf, rfl⟩
  · exact readAll_decodeSafe hP hs hg.1 hg.2.1 h hl
  · exact decodes_args hP hs hg hf

/-! ## `puts` -/

theorem puts_append (P : Platform) : ∀ (as bs : List Byte),
    (puts P (as ++ bs) : Eff (BState σ) (List Status)) =
      (puts P as >>= fun sts => puts P bs >>= fun sts' => pure (sts ++ sts'))
  | [], bs => by
    show puts P bs = (pure [] >>= _)
    simp
  | x :: as, bs => by
    show (Buf.put P x >>= fun st => puts P (as ++ bs) >>= fun sts => pure (st :: sts)) = _
    rw [puts_append P as bs]
    show _ = ((Buf.put P x >>= fun st => puts P as >>= fun sts => pure (st :: sts)) >>= _)
    simp only [bind_assoc, pure_bind, List.cons_append]

/-- Bytes which do not complete the packet. -/
theorem puts_loading_all {P : Platform} (hP : P.Valid) {p : Proto σ} : ∀ {bs : List Byte} {b : Buf σ} {pending : List Byte},
    RelIn p b pending → BufOk P p b → Incomplete p (pending ++ bs) →
    ∃ b', (∀ w, puts P bs (b, w) = .ret (List.replicate bs.length .loading) (b', w)) ∧ RelIn p b' (pending ++ bs) ∧ Same b b' ∧
      OutSame b b' ∧
      ∀ (src : Eff σ Byte) (w w1 : σ), Yields src w bs w1 → Buf.readFrom P src (b, w) = Buf.readFrom P src (b', w1)
  | [], b, pending, h, hb, _ => by
    refine ⟨b, fun _ => rfl, by simpa using h, Same.refl b, ⟨rfl, rfl, rfl⟩, ?_⟩
    intro src w w1 hy
    cases hy
    rfl
  | x :: bs, b, pending, h, hb, hi => by
    rw [show pending ++ x :: bs = (pending ++ [x]) ++ bs by simp] at hi
    obtain ⟨b1, h1, h2, h3, h4⟩ := put_more_all hP h hb (classify_more_iff.2 (incomplete_prefix hi))
    obtain ⟨b2, h5, h6, h7, h8, h9⟩ := puts_loading_all hP h2 (hb.same h3) hi
    refine ⟨b2, fun w => ?_, by simpa using h6, h3.trans h7,
      ⟨h8.obuf.trans h4.obuf, h8.next.trans h4.next, h8.bottom.trans h4.bottom⟩, ?_⟩
    · show (Buf.put P x >>= fun st => puts P bs >>= fun sts => pure (st :: sts)) (b, w) = _
      rw [Eff.bind_ret (h1 w), Eff.bind_ret (h5 w)]
      rfl
    · intro src w w1 hy
      cases hy with
      | @cons _ w' _ _ _ h10 h11 =>
        rw [readFrom_unfold hP h hb, Eff.bind_ret (onWorld_ret h10), Eff.bind_ret (h1 w'), if_pos rfl]
        exact h9 src w' w1 h11

theorem puts_loading {P : Platform} (hP : P.Valid) {p : Proto σ} (w : σ) {bs : List Byte} {b : Buf σ} {pending : List Byte}
    (h : RelIn p b pending) (hb : BufOk P p b) (hi : Incomplete p (pending ++ bs)) :
    ∃ b', puts P bs (b, w) = .ret (List.replicate bs.length .loading) (b', w) ∧ RelIn p b' (pending ++ bs) ∧ Same b b' ∧
      OutSame b b' := by
  obtain ⟨b', h1, h2, h3, h4, _⟩ := puts_loading_all hP h hb hi
  exact ⟨b', h1 w, h2, h3, h4⟩

theorem puts_one (P : Platform) (x : Byte) :
    (puts P [x] : Eff (BState σ) (List Status)) = (Buf.put P x >>= fun st => pure [st]) := by
  show (Buf.put P x >>= fun st => pure [] >>= fun sts => pure (st :: sts)) = _
  simp only [pure_bind]

/-- Bytes of which the last one completes the packet: all but the last one are stored, then the effect is that of putting the last
one. -/
theorem puts_last {P : Platform} (hP : P.Valid) {p : Proto σ} (w : σ) {bs : List Byte} {x : Byte} {b : Buf σ}
    {pending : List Byte} (h : RelIn p b pending) (hb : BufOk P p b) (hi : Incomplete p (pending ++ bs)) :
    ∃ b1, RelIn p b1 (pending ++ bs) ∧ Same b b1 ∧ OutSame b b1 ∧
      puts P (bs ++ [x]) (b, w) = (Buf.put P x >>= fun st => pure (List.replicate bs.length .loading ++ [st])) (b1, w) := by
  obtain ⟨b1, h1, h2, h3, h4⟩ := puts_loading hP w h hb hi
  refine ⟨b1, h2, h3, h4, ?_⟩
  rw [puts_append, Eff.bind_ret h1, puts_one, bind_assoc]
  simp only [pure_bind]

/-- The bytes of an invalid index. -/
theorem puts_invalid {P : Platform} (hP : P.Valid) {p : Proto σ} (w : σ) {b : Buf σ} (h : RelIn p b []) (hb : BufOk P p b)
    {index : List Byte} (hl : index.length = p.idxBytes) (hc : p.cbs[wireValue p.e index]? = none) :
    ∃ b', puts P index (b, w) = .ret (List.replicate (index.length - 1) .loading ++ [.dropped]) (b', w) ∧ RelIn p b' [] ∧
      Same b b' ∧ OutSame b b' := by
  have hne : index ≠ [] := by
    intro h0; rw [h0] at hl; have := hb.serves.pos; simp at hl; omega
  obtain ⟨init, x, rfl⟩ : ∃ init x, index = init ++ [x] := ⟨_, _, (List.dropLast_concat_getLast hne).symm⟩
  have hi : Incomplete p ([] ++ init) := Or.inl (by simp at hl ⊢; omega)
  obtain ⟨b1, h1, h2, h3, h4⟩ := puts_last hP w (x := x) h hb hi
  obtain ⟨b2, h5, h6, h7, h8⟩ := put_bad hP h1 (hb.same h2) (x := x) (by simpa using classify_bad hl hc) w
  rw [h4, Eff.bind_ret h5]
  exact ⟨b2, by simp, h6, h2.trans h7, ⟨h8.obuf.trans h3.obuf, h8.next.trans h3.next, h8.bottom.trans h3.bottom⟩⟩

/-- The bytes of a whole request; the response is at the beginning of the output buffer. -/
theorem puts_call_full {P : Platform} (hP : P.Valid) {p : Proto σ} (w : σ) {b : Buf σ} (h : RelIn p b []) (hb : BufOk P p b)
    {cb : Callback σ} {index args : List Byte} (hl : index.length = p.idxBytes)
    (hc : p.cbs[wireValue p.e index]? = some cb) (ha : args.length = wireSizes cb.sig.params)
    (hd : Decodes P p cb args) (ho : retSize cb.sig.ret ≤ b.out.length) :
    match cb.fn (unwires p.e p.s cb.sig.params args) w with
    | .ret r w' => ∃ b', puts P (index ++ args) (b, w) =
          .ret (List.replicate (index.length + args.length - 1) .loading ++ [.resolved]) (b', w') ∧ RelIn p b' [] ∧
          Unread b' (response p.e p.s cb.sig.ret r) ∧ Same b b' ∧ b'.obufNext = 0
    | .threw w' => ∃ b', puts P (index ++ args) (b, w) = .threw (b', w')
    | .fault f => puts P (index ++ args) (b, w) = .fault f := by
  have hne : index ++ args ≠ [] := by
    intro h0; have := hb.serves.pos; rw [List.append_eq_nil_iff.1 h0 |>.1] at hl; simp at hl; omega
  obtain ⟨init, x, he⟩ : ∃ init x, index ++ args = init ++ [x] := ⟨_, _, (List.dropLast_concat_getLast hne).symm⟩
  have hi : Incomplete p ([] ++ init) := incomplete_call hl hc ha he (by simp)
  have hlen : index.length + args.length = init.length + 1 := by simpa using congrArg List.length he
  obtain ⟨b1, h1, h2, h3, h4⟩ := puts_last hP w (x := x) h hb hi
  have hcl : p.classify (([] ++ init) ++ [x]) = .request cb args := by
    rw [List.nil_append, ← he]; exact classify_call hl hc ha
  have hb1 := hb.same h2
  obtain ⟨hm, _⟩ := put_request hP h1 hb1 hcl w
  obtain ⟨b2, h5, h6⟩ := put_request_eq hP h1 hb1 hcl hd w
  rw [he, h4, hlen]
  cases hfn : cb.fn (unwires p.e p.s cb.sig.params args) w with
  | fault f => rw [hfn] at h6; exact Eff.bind_fault h6
  | threw w' => rw [hfn] at h6; exact ⟨_, Eff.bind_threw h6⟩
  | ret r w' =>
    rw [hfn] at h6
    have hr := hb.serves.typed cb hm _ _ _ _ hd.2 hfn
    have hfit : (response p.e p.s cb.sig.ret r).length ≤ b2.out.length := by
      rw [response_length (hb.serves.sig cb hm) hr, (h2.trans h5).outLen]; exact ho
    simp only at h6
    rw [if_pos hfit] at h6
    exact ⟨_, Eff.bind_ret h6, finish_relIn hb.serves.pos, finish_unread hfit, h2.trans (h5.trans (finish_same hfit)),
      by unfold Buf.finish Buf.pushAll; cases b2.shared <;> rfl⟩

/-- The bytes of a whole request. -/
theorem puts_call {P : Platform} (hP : P.Valid) {p : Proto σ} (w : σ) {b : Buf σ} (h : RelIn p b []) (hb : BufOk P p b)
    {cb : Callback σ} {index args : List Byte} (hl : index.length = p.idxBytes)
    (hc : p.cbs[wireValue p.e index]? = some cb) (ha : args.length = wireSizes cb.sig.params)
    (hd : Decodes P p cb args) (ho : retSize cb.sig.ret ≤ b.out.length) :
    match cb.fn (unwires p.e p.s cb.sig.params args) w with
    | .ret r w' => ∃ b', puts P (index ++ args) (b, w) =
          .ret (List.replicate (index.length + args.length - 1) .loading ++ [.resolved]) (b', w') ∧ RelIn p b' [] ∧
          Unread b' (response p.e p.s cb.sig.ret r) ∧ Same b b'
    | .threw w' => ∃ b', puts P (index ++ args) (b, w) = .threw (b', w')
    | .fault f => puts P (index ++ args) (b, w) = .fault f := by
  have h1 := puts_call_full hP w h hb hl hc ha hd ho
  cases hfn : cb.fn (unwires p.e p.s cb.sig.params args) w with
  | fault f => rw [hfn] at h1; exact h1
  | threw w' => rw [hfn] at h1; exact h1
  | ret r w' =>
    rw [hfn] at h1
    obtain ⟨b', h2, h3, h4, h5, _⟩ := h1
    exact ⟨b', h2, h3, h4, h5⟩

/-- The bytes of several packets. -/
theorem puts_cuts {P : Platform} (hP : P.Valid) {p : Proto σ} {bs rest : List Byte} {ps : List (Packet σ)}
    (hcut : Cuts p bs ps rest) (hd : ∀ cb index args, Packet.call cb index args ∈ ps → Readable P p cb args) :
    ∀ {b : Buf σ} {w : σ}, RelIn p b [] → BufOk P p b → OutRoom p b →
    match serveAll p rest ps w with
    | .ret sts w' => ∃ b', puts P bs (b, w) = .ret sts (b', w') ∧ RelIn p b' rest ∧ Same b b'
    | .threw w' => ∃ b', puts P bs (b, w) = .threw (b', w')
    | .fault f => puts P bs (b, w) = .fault f := by
  induction hcut with
  | rest hi =>
    intro b w h hb ho
    obtain ⟨b', h1, h2, h3, _⟩ := puts_loading hP w h hb (by simpa using hi)
    exact ⟨b', h1, by simpa using h2, h3⟩
  | @invalid index bs rest ps hl hc _ ih =>
    intro b w h hb ho
    obtain ⟨b1, h1, h2, h3, _⟩ := puts_invalid hP w h hb hl hc
    have := ih (fun cb i a hm => hd cb i a (by simp [hm])) (w := w) h2 (hb.same h3) (ho.same h3)
    rw [puts_append, Eff.bind_ret h1]
    revert this
    show _ → match (serveAll p rest ps >>= fun sts =>
      pure (List.replicate (index.length - 1) .loading ++ .dropped :: sts)) w with | .ret sts w' => _ | .threw w' => _ | .fault f => _
    cases hs : serveAll p rest ps w with
    | ret sts w' =>
      rw [Eff.bind_ret hs]
      rintro ⟨b', h4, h5, h6⟩
      exact ⟨b', by rw [Eff.bind_ret h4]; simp, h5, h3.trans h6⟩
    | threw w' =>
      rw [Eff.bind_threw hs]
      rintro ⟨b', h4⟩
      exact ⟨b', by rw [Eff.bind_threw h4]⟩
    | fault f =>
      rw [Eff.bind_fault hs]
      intro h4
      exact Eff.bind_fault h4
  | @call cb index args bs rest ps hl hc ha _ ih =>
    intro b w h hb ho
    have hm := mem_of_get hc
    have hdec := readable_decodes hP hb.serves.sup (hb.serves.sig cb hm) ha (hd cb index args (by simp))
    have h1 := puts_call hP w h hb hl hc ha hdec (ho cb hm)
    rw [puts_append]
    show match (cb.fn (unwires p.e p.s cb.sig.params args) >>= fun _ => serveAll p rest ps >>= fun sts =>
      pure (List.replicate (index.length + args.length - 1) .loading ++ .resolved :: sts)) w with
      | .ret sts w' => _ | .threw w' => _ | .fault f => _
    revert h1
    cases hfn : cb.fn (unwires p.e p.s cb.sig.params args) w with
    | fault f => rw [Eff.bind_fault hfn]; intro h1; exact Eff.bind_fault h1
    | threw w' => rw [Eff.bind_threw hfn]; rintro ⟨b', h1⟩; exact ⟨b', Eff.bind_threw h1⟩
    | ret r w1 =>
      rw [Eff.bind_ret hfn]
      rintro ⟨b1, h1, h2, _, h3⟩
      have := ih (fun cb i a hm => hd cb i a (by simp [hm])) (w := w1) h2 (hb.same h3) (ho.same h3)
      rw [Eff.bind_ret h1]
      revert this
      cases hs : serveAll p rest ps w1 with
      | ret sts w' =>
        rw [Eff.bind_ret hs]
        rintro ⟨b', h4, h5, h6⟩
        exact ⟨b', by rw [Eff.bind_ret h4]; simp, h5, h3.trans h6⟩
      | threw w' =>
        rw [Eff.bind_threw hs]
        rintro ⟨b', h4⟩
        exact ⟨b', by rw [Eff.bind_threw h4]⟩
      | fault f =>
        rw [Eff.bind_fault hs]
        intro h4
        exact Eff.bind_fault h4

/-- `read_from` on the bytes which complete the packet. -/
theorem readFrom_last {P : Platform} (hP : P.Valid) {p : Proto σ} {bs : List Byte} {x : Byte} {b : Buf σ}
    {pending : List Byte} (h : RelIn p b pending) (hb : BufOk P p b) (hi : Incomplete p (pending ++ bs))
    (hc : ¬ Incomplete p (pending ++ bs ++ [x])) {src : Eff σ Byte} {w w1 : σ} (hy : Yields src w (bs ++ [x]) w1) :
    Buf.readFrom P src (b, w) = (puts P (bs ++ [x]) >>= fun sts => pure (sts.getLastD .loading)) (b, w1) := by
  obtain ⟨b1, h1, h2, h3, _, h5⟩ := puts_loading_all hP h hb hi
  obtain ⟨w0, hy0, hy1⟩ := Yields.split hy
  rw [h5 src w w0 hy0]
  cases hy1 with
  | @cons _ w' _ _ _ h6 h7 =>
    cases h7
    rw [readFrom_unfold hP h2 (hb.same h3), Eff.bind_ret (onWorld_ret h6), puts_append, bind_assoc, Eff.bind_ret (h1 w1),
      puts_one]
    simp only [bind_assoc, pure_bind]
    cases he : Buf.put P x (b1, w1) with
    | fault f => rw [Eff.bind_fault he, Eff.bind_fault he]
    | threw t => rw [Eff.bind_threw he, Eff.bind_threw he]
    | ret st t =>
      rw [Eff.bind_ret he, Eff.bind_ret he]
      have hne : st ≠ .loading := by
        rintro rfl
        obtain ⟨b', w'⟩ := t
        rcases put_cases hP h2 (hb.same h3) x w1 with ⟨hm, _⟩ | ⟨_, b2, h8, _⟩ | ⟨cb, args, _, _, _, h0⟩
        · exact hc (classify_more_iff.1 hm)
        · rw [he] at h8; cases h8
        · rcases h0 with ⟨_, ⟨r, w1, _, _, ⟨b2, h8, _⟩ | ⟨_, h8⟩⟩ | ⟨w1, b2, _, h8⟩ | ⟨f, _, h8⟩⟩ | ⟨f, _, _, h8⟩
          all_goals (rw [he] at h8; cases h8)
      rw [if_neg hne]
      simp

end Upd
