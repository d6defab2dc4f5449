import Verif.Spec.Overlap
import Verif.Props.InterruptExact
import Verif.Lemmas.Preempt

/-! # `put` interrupted any number of times -/

namespace Upd

open Spec

variable {σ : Type}

/-- What a transmitter makes of the world when it sends some bytes. -/
def txAll (T : Byte → σ → σ) : List Byte → σ → σ
  | [], w => w
  | y :: l, w => txAll T l (T y w)

theorem txAll_append (T : Byte → σ → σ) : ∀ (l l' : List Byte) (w : σ), txAll T (l ++ l') w = txAll T l' (txAll T l w)
  | [], _, _ => rfl
  | _ :: l, l', _ => txAll_append T l l' _

theorem txAll_take_drop (T : Byte → σ → σ) (l : List Byte) (m n : Nat) (w : σ) :
    txAll T ((l.drop m).take n) (txAll T (l.take m) w) = txAll T (l.take (m + n)) w := by
  rw [← txAll_append, List.take_add]

theorem unread_tail {b : Buf σ} {y : Byte} {u : List Byte} (h : Unread b (y :: u)) : Unread { b with obufNext := b.obufNext + 1 } u := by
  have h1 := h.bottom
  have h2 := h.bytes
  simp only [List.length_cons] at h1 h2
  refine ⟨by show b.obufNext + 1 + _ = b.obufBottom; omega, h.le, ?_⟩
  show slice b.out (b.obufNext + 1) u.length = u
  unfold slice at h2 ⊢
  cases hd : b.out.drop b.obufNext with
  | nil => rw [hd] at h2; simp at h2
  | cons z l =>
    rw [hd] at h2
    simp only [List.take_succ_cons, List.cons.injEq] at h2
    rw [← List.drop_drop, hd]
    exact h2.2

theorem unread_drop : ∀ {u : List Byte} {b : Buf σ} (n : Nat), Unread b u → n ≤ u.length →
    Unread { b with obufNext := b.obufNext + n } (u.drop n)
  | _, b, 0, h, _ => h
  | y :: u, b, n + 1, h, hn => by
    have := unread_drop n (unread_tail h) (by simpa using hn)
    rw [show b.obufNext + (n + 1) = b.obufNext + 1 + n by omega]
    exact this

section
variable {tx : Byte → Eff σ Unit} {T : Byte → σ → σ} (hT : ∀ y w, tx y w = .ret () (T y w))
include hT

/-- The handler sends the bytes which remain, as long as `is_loaded()`: `m_obuf_bottom` may have changed. -/
theorem times_any : ∀ (m : Nat) {b : Buf σ} {u : List Byte} {w : σ} (B : Nat), Unread b u → m ≤ u.length → (∀ j, j < m → b.obufNext + j ≠ B) →
    times (Buf.txIsr tx) m ({ b with obufBottom := B }, w) =
      .ret () ({ b with obufBottom := B, obufNext := b.obufNext + m }, txAll T (u.take m) w)
  | 0, b, u, w, B, _, _, _ => by rw [List.take_zero]; rfl
  | m + 1, b, [], w, B, _, hm, _ => by simp at hm
  | m + 1, b, y :: u, w, B, hu, hm, hB => by
    have h1 := txIsr_sends (tx := tx) (b := { b with obufBottom := B }) (w := w) (y := y)
      (by unfold Buf.isLoaded; have := hB 0 (by omega); simpa using this) (show b.out[b.obufNext]? = some y from unread_head hu) (hT y w)
    show (Buf.txIsr tx >>= fun _ => times (Buf.txIsr tx) m) _ = _
    rw [Eff.bind_ret h1]
    have h2 := times_any m (w := T y w) B (unread_tail hu) (by simpa using hm) (fun j hj => by
      have := hB (j + 1) (by omega)
      show b.obufNext + 1 + j ≠ B
      omega)
    have e : b.obufNext + 1 + m = b.obufNext + (m + 1) := by omega
    simp only [e] at h2
    rw [List.take_succ_cons]
    exact h2

omit hT in
/-- The handler has nothing to send. -/
theorem times_none : ∀ (m : Nat) {b : Buf σ} {w : σ}, b.isLoaded = false → times (Buf.txIsr tx) m (b, w) = .ret () (b, w)
  | 0, _, _, _ => rfl
  | m + 1, b, w, h => by
    have h1 : Buf.txIsr tx (b, w) = .ret () (b, w) := by
      unfold Buf.txIsr
      show (if b.isLoaded = true then _ else _ : Eff (BState σ) Unit) (b, w) = _
      rw [if_neg (by rw [h]; simp)]
      rfl
    show (Buf.txIsr tx >>= fun _ => times (Buf.txIsr tx) m) _ = _
    rw [Eff.bind_ret h1, times_none m h]

omit hT in
theorem times_add {τ : Type} (isr : Eff τ Unit) : ∀ (m n : Nat), times isr (m + n) = (times isr m >>= fun _ => times isr n)
  | 0, n => by rw [Nat.zero_add]; rfl
  | m + 1, n => by
    rw [show m + 1 + n = m + n + 1 by omega]
    show (isr >>= fun _ => times isr (m + n)) = ((isr >>= fun _ => times isr m) >>= fun _ => times isr n)
    rw [times_add isr m n, bind_assoc]

theorem times_unread (n : Nat) {b : Buf σ} {u : List Byte} {w : σ} (hu : Unread b u) :
    times (Buf.txIsr tx) n (b, w) = .ret () ({ b with obufNext := b.obufNext + min n u.length }, txAll T (u.take n) w) := by
  have h0 : ∀ m, m ≤ u.length → times (Buf.txIsr tx) m (b, w) = .ret () ({ b with obufNext := b.obufNext + m }, txAll T (u.take m) w) := by
    intro m hm
    exact times_any hT m b.obufBottom hu hm (fun j hj => by have := hu.bottom; omega)
  by_cases hn : n ≤ u.length
  · rw [Nat.min_eq_left hn]; exact h0 n hn
  · rw [Nat.min_eq_right (by omega), show n = u.length + (n - u.length) by omega, times_add, Eff.bind_ret (h0 _ (Nat.le_refl _)),
      times_none _ (by unfold Buf.isLoaded; have := hu.bottom; simp; omega), List.take_of_length_le (Nat.le_refl _),
      List.take_of_length_le (by omega)]

omit hT in
theorem unread_min {b : Buf σ} {u : List Byte} (n : Nat) (hu : Unread b u) :
    Unread { b with obufNext := b.obufNext + min n u.length } (u.drop n) := by
  by_cases hn : n ≤ u.length
  · rw [Nat.min_eq_left hn]; exact unread_drop n hu hn
  · have := unread_drop u.length hu (Nat.le_refl _)
    rw [Nat.min_eq_right (by omega), List.drop_eq_nil_of_le (by omega)]
    rwa [List.drop_eq_nil_of_le (Nat.le_refl _)] at this

omit hT in
theorem storeOut_at {b : Buf σ} {x : Byte} (h : b.obufBottom < b.out.length) :
    ∃ b', b.storeOut b.obufBottom x = .ok b' ∧ b'.obufBottom = b.obufBottom ∧ b'.obufNext = b.obufNext ∧ b'.out = b.out.set b.obufBottom x ∧
      ∀ m, ({ b' with obufBottom := b.obufBottom + 1, obufNext := m } : Buf σ) = { b.pushAll [x] with obufNext := m } := by
  unfold Buf.storeOut
  rw [if_pos h]
  unfold Buf.out at h
  unfold Buf.pushAll
  unfold Buf.out
  cases hs : b.shared <;> simp only [hs, if_true, if_false, Bool.false_eq_true] at h ⊢ <;> rw [splice_one h] <;>
    exact ⟨_, rfl, rfl, rfl, by simp, fun _ => rfl⟩

omit hT in
theorem unread_set {b b' : Buf σ} {u : List Byte} {x : Byte} (hu : Unread b u) (h1 : b'.obufBottom = b.obufBottom) (h2 : b'.obufNext = b.obufNext)
    (h3 : b'.out = b.out.set b.obufBottom x) : Unread b' u := by
  have hb := hu.bottom
  refine ⟨by rw [h1, h2]; exact hb, by rw [h1, h3, List.length_set]; exact hu.le, ?_⟩
  rw [h2, h3]
  have h4 := hu.bytes
  unfold slice at h4 ⊢
  apply List.ext_getElem?
  intro j
  have h5 : ((b.out.drop b.obufNext).take u.length)[j]? = u[j]? := by rw [h4]
  rw [← h5]
  simp only [List.getElem?_take, List.getElem?_drop]
  split
  · rw [List.getElem?_set_ne (by omega)]
  · rfl

omit hT in
theorem unread_push {b : Buf σ} {u : List Byte} {x : Byte} (hu : Unread b u) (h : b.obufBottom < b.out.length) : Unread (b.pushAll [x]) (u ++ [x]) := by
  have hb := hu.bottom
  have hlen := pushAll_out_length (b := b) (bs := [x]) (by simp; omega)
  have h4 := hu.bytes
  refine ⟨by rw [pushAll_obufNext, pushAll_bottom]; simp; omega, by rw [hlen, pushAll_bottom]; simp; omega, ?_⟩
  rw [pushAll_obufNext, pushAll_out, splice_one h]
  unfold slice at h4 ⊢
  apply List.ext_getElem?
  intro j
  simp only [List.getElem?_take, List.getElem?_drop, List.length_append, List.length_cons, List.length_nil]
  by_cases hj : j < u.length
  · rw [if_pos (by omega), List.getElem?_set_ne (by omega), List.getElem?_append_left hj, ← h4, List.getElem?_take, List.getElem?_drop,
      if_pos hj]
  · by_cases hj' : j = u.length
    · subst hj'
      rw [if_pos (by omega), hb, List.getElem?_set_self h, List.getElem?_append_right (Nat.le_refl _), Nat.sub_self]
      rfl
    · rw [if_neg (by omega), List.getElem?_append_right (by omega), List.getElem?_eq_none (by simp; omega)]

omit hT in
theorem sentSoFar_le (runs : CallPoint → Nat) : ∀ k, sentSoFar runs k ≤ k
  | 0 => Nat.le_refl 0
  | _ + 1 => Nat.min_le_left _ _

/-- One byte of the response. -/
theorem destMany_step {runs : CallPoint → Nat} {bf : Bool} {b : Buf σ} {u : List Byte} {w : σ} {x : Byte} {i : Nat} (hu : Unread b u)
    (h : b.obufBottom < b.out.length) (hn : b.obufNext = sentSoFar runs b.obufBottom)
    (hmid : bf = true → sentSoFar runs b.obufBottom + runs (.beforeStore b.obufBottom) ≤ b.obufBottom) :
    ∃ j, b.obufNext + j = sentSoFar runs (b.obufBottom + 1) ∧ j ≤ u.length + 1 ∧
      destMany (Buf.txIsr tx) runs bf x (i, (b, w)) =
        .ret () (i, ({ b.pushAll [x] with obufNext := b.obufNext + j }, txAll T ((u ++ [x]).take j) w)) := by
  have hb := hu.bottom
  obtain ⟨m, hm⟩ : ∃ m, m = runs (.beforeStore b.obufBottom) := ⟨_, rfl⟩
  obtain ⟨n, hn'⟩ : ∃ n, n = runs (.afterByte b.obufBottom) := ⟨_, rfl⟩
  have hs : sentSoFar runs (b.obufBottom + 1) = min (b.obufBottom + 1) (min b.obufBottom (b.obufNext + m) + n) := by
    show min (b.obufBottom + 1) (min b.obufBottom (sentSoFar runs b.obufBottom + runs (.beforeStore b.obufBottom)) + _) = _
    rw [← hn, ← hm, ← hn']
  refine ⟨min m u.length + min n ((u ++ [x]).drop (min m u.length)).length, ?_, ?_, ?_⟩
  · rw [hs, List.length_drop, List.length_append, List.length_singleton]; omega
  · rw [List.length_drop, List.length_append, List.length_singleton]; omega
  have hpush := unread_push (x := x) hu h
  have hlast : times (Buf.txIsr tx) n ({ b.pushAll [x] with obufNext := b.obufNext + min m u.length }, txAll T ((u ++ [x]).take (min m u.length)) w) =
      .ret () ({ b.pushAll [x] with obufNext := b.obufNext + (min m u.length + min n ((u ++ [x]).drop (min m u.length)).length) },
        txAll T ((u ++ [x]).take (min m u.length + min n ((u ++ [x]).drop (min m u.length)).length)) w) := by
    have h1 := unread_drop (min m u.length) hpush (by simp; omega)
    rw [pushAll_obufNext] at h1
    have h2 := times_unread hT n (w := txAll T ((u ++ [x]).take (min m u.length)) w) h1
    rw [h2, ← txAll_take_drop]
    generalize (u ++ [x]).drop (min m u.length) = v
    have hv : v.take n = v.take (min n v.length) := by
      by_cases hnl : n ≤ v.length
      · rw [Nat.min_eq_left hnl]
      · rw [Nat.min_eq_right (by omega), List.take_of_length_le (by omega), List.take_of_length_le (Nat.le_refl _)]
    rw [hv]
    show Res.ret () (({ b.pushAll [x] with obufNext := b.obufNext + min m u.length + min n v.length } : Buf σ), _) = _
    rw [Nat.add_assoc]
  have htake : ∀ k, k ≤ u.length → (u ++ [x]).take k = u.take k := fun k hk => by
    rw [List.take_append_of_le_length hk]
  apply underPtr_ret
  cases bf with
  | true =>
    have hmle := hmid rfl
    rw [← hn, ← hm] at hmle
    have hmu : min m u.length = m := by omega
    show (modifyBuf (fun b' => { b' with obufBottom := b.obufBottom + 1 }) >>= fun _ =>
      (times (Buf.txIsr tx) (runs (.beforeStore b.obufBottom)) >>= fun _ => Eff.get >>= fun st : BState σ =>
        Eff.lift (st.1.storeOut b.obufBottom x) >>= fun b2 => (modifyBuf fun _ => b2) >>= fun _ =>
          times (Buf.txIsr tx) (runs (.afterByte b.obufBottom)))) (b, w) = _
    rw [Eff.bind_ret (show modifyBuf (fun b' => { b' with obufBottom := b.obufBottom + 1 }) (b, w) =
      .ret () ({ b with obufBottom := b.obufBottom + 1 }, w) from rfl), ← hm,
      Eff.bind_ret (times_any hT m (b.obufBottom + 1) hu (by omega) (fun j hj => by omega))]
    show (Eff.lift (Buf.storeOut { b with obufBottom := b.obufBottom + 1, obufNext := b.obufNext + m } b.obufBottom x) >>= _)
          (({ b with obufBottom := b.obufBottom + 1, obufNext := b.obufNext + m } : Buf σ), _) = _
    rw [storeOut_last h, Eff.lift_ok, pure_bind]
    rw [hmu, htake m (by omega)] at hlast
    rw [← hn', hmu]
    exact hlast
  | false =>
    obtain ⟨b', h1, h2, h3, h4, h5⟩ := storeOut_at (x := x) h
    show (Eff.lift (Buf.storeOut b b.obufBottom x) >>= _) (b, w) = _
    rw [h1, Eff.lift_ok, pure_bind]
    show (times (Buf.txIsr tx) (runs (.beforeStore b.obufBottom)) >>= fun _ =>
      modifyBuf (fun b' => { b' with obufBottom := b.obufBottom + 1 }) >>= fun _ => times (Buf.txIsr tx) _) (b', w) = _
    rw [← hm, Eff.bind_ret (times_unread hT m (unread_set hu h2 h3 h4)), h3]
    rw [Eff.bind_ret (show modifyBuf (fun b' => { b' with obufBottom := b.obufBottom + 1 })
        ({ b' with obufNext := b.obufNext + min m u.length }, txAll T (u.take m) w) =
      .ret () ({ b' with obufBottom := b.obufBottom + 1, obufNext := b.obufNext + min m u.length }, txAll T (u.take m) w) from rfl), h5, ← hn']
    rw [htake _ (by omega), show u.take (min m u.length) = u.take m by
      by_cases hm' : m ≤ u.length
      · rw [Nat.min_eq_left hm']
      · rw [Nat.min_eq_right (by omega), List.take_of_length_le (Nat.le_refl _), List.take_of_length_le (by omega)]] at hlast
    exact hlast

/-- All the bytes of the response. -/
theorem putAll_many {runs : CallPoint → Nat} {bf : Bool} {i : Nat} (hmid : bf = true → ∀ k, sentSoFar runs k + runs (.beforeStore k) ≤ k) :
    ∀ {bs : List Byte} {b : Buf σ} {u : List Byte} {w : σ}, Unread b u → b.obufBottom + bs.length ≤ b.out.length →
      b.obufNext = sentSoFar runs b.obufBottom →
      ∃ j, b.obufNext + j = sentSoFar runs (b.obufBottom + bs.length) ∧
        putAll (destMany (Buf.txIsr tx) runs bf) bs (i, (b, w)) =
          .ret () (i, ({ b.pushAll bs with obufNext := b.obufNext + j }, txAll T ((u ++ bs).take j) w))
  | [], b, u, w, hu, _, hn => ⟨0, hn, by rw [pushAll_nil]; rfl⟩
  | x :: bs, b, u, w, hu, h, hn => by
    simp only [List.length_cons] at h
    obtain ⟨j, h1, h1', h2⟩ := destMany_step hT (x := x) (i := i) (w := w) hu (by omega) hn (fun hb => hmid hb _)
    have hbt : (b.pushAll [x]).obufBottom = b.obufBottom + 1 := by rw [pushAll_bottom]; rfl
    have hlen := pushAll_out_length (b := b) (bs := [x]) (by simp; omega)
    have hu' := unread_drop j (unread_push (x := x) hu (by omega)) (by simpa using h1')
    rw [pushAll_obufNext] at hu'
    obtain ⟨j', h3, h4⟩ := putAll_many hmid (bs := bs) (b := { b.pushAll [x] with obufNext := b.obufNext + j }) (i := i)
      (w := txAll T ((u ++ [x]).take j) w) hu' (by
        show (b.pushAll [x]).obufBottom + _ ≤ (b.pushAll [x]).out.length
        rw [hbt, hlen]; omega) (by
        show b.obufNext + j = sentSoFar runs (b.pushAll [x]).obufBottom
        rw [hbt]; exact h1)
    refine ⟨j + j', ?_, ?_⟩
    · have : b.obufNext + j + j' = sentSoFar runs ((b.pushAll [x]).obufBottom + bs.length) := h3
      rw [hbt] at this
      rw [List.length_cons, show b.obufBottom + (bs.length + 1) = b.obufBottom + 1 + bs.length by omega, ← this]
      omega
    · show (destMany (Buf.txIsr tx) runs bf x >>= fun _ => putAll (destMany (Buf.txIsr tx) runs bf) bs) (i, (b, w)) = _
      rw [Eff.bind_ret h2, h4, pushAll_next, pushAll_cons h]
      have e : (u ++ x :: bs).take (j + j') = (u ++ [x]).take j ++ ((u ++ [x]).drop j ++ bs).take j' := by
        rw [show u ++ x :: bs = (u ++ [x]) ++ bs by simp, List.take_add, List.take_append_of_le_length (by simpa using h1'),
          List.drop_append_of_le_length (by simpa using h1')]
      rw [e, txAll_append]
      congr 3
      show ({ b.pushAll (x :: bs) with obufNext := b.obufNext + j + j' } : Buf σ) = _
      rw [Nat.add_assoc]

/-- `call()`. -/
theorem callMany_buf {P : Platform} (hP : P.Valid) {p : Proto σ} {b : Buf σ} (hS : Serves P p b.disp) {cb : Callback σ}
    (hcb : p.cbs[wireValue p.e (slice b.ibuf 0 p.idxBytes)]? = some cb)
    (hroom : p.idxBytes + wireSizes cb.sig.params ≤ b.ibuf.length)
    (hdec : Decodes P p cb (slice b.ibuf p.idxBytes (wireSizes cb.sig.params))) (hfit : retSize cb.sig.ret ≤ b.out.length)
    {runs : CallPoint → Nat} {bf : Bool} (hmid : bf = true → ∀ k, sentSoFar runs k + runs (.beforeStore k) ≤ k) {n : Nat} {w w' : σ}
    (hres : times (Buf.txIsr tx) (runs .betweenResets) ({ b with obufBottom := 0 }, w) = .ret () ({ b with obufBottom := 0, obufNext := n }, w')) :
    Buf.callMany P (Buf.txIsr tx) runs bf (b, w) =
      match cb.fn (unwires p.e p.s cb.sig.params (slice b.ibuf p.idxBytes (wireSizes cb.sig.params))) w' with
      | .ret r w2 =>
        .ret () ({ b.finish p.idxBytes (response p.e p.s cb.sig.ret r) with
            obufNext := sentSoFar runs (response p.e p.s cb.sig.ret r).length },
          txAll T ((response p.e p.s cb.sig.ret r).take (sentSoFar runs (response p.e p.s cb.sig.ret r).length)) w2)
      | .threw w2 => .threw ({ b with obufBottom := 0, obufNext := 0 }, w2)
      | .fault f => .fault f := by
  have hg := hS.sig cb (mem_of_get hcb)
  obtain ⟨a, ha, hh, _⟩ := hS.act _ _ hcb
  obtain ⟨b0, hb0⟩ : ∃ b0 : Buf σ, b0 = { b with obufBottom := 0, obufNext := 0 } := ⟨_, rfl⟩
  have hi : b0.ibuf = b.ibuf := by rw [hb0]
  have hD : b0.disp = b.disp := by rw [hb0]
  have ho : b0.out = b.out := by rw [hb0]; rfl
  have hbot : b0.obufBottom = 0 := by rw [hb0]
  have hnext : b0.obufNext = 0 := by rw [hb0]
  have h1 : (modifyBuf fun b : Buf σ => { b with obufBottom := 0 }) (b, w) = .ret () ({ b with obufBottom := 0 }, w) := rfl
  have h2 : (modifyBuf fun b : Buf σ => { b with obufNext := 0 }) ({ b with obufBottom := 0, obufNext := n }, w') = .ret () (b0, w') := by
    rw [hb0]; rfl
  unfold Buf.callMany
  rw [Eff.bind_ret h1, Eff.bind_ret hres, Eff.bind_ret h2]
  show (withPtr _ >>= _) (b0, w') = _
  simp only [hD]
  have hblock : (do
      let index ← b.disp.getIndex P ibufSrc
      let a ← Eff.lift (b.disp.at index)
      a.invoke P worldLens ibufSrc (destMany (Buf.txIsr tx) runs bf) : Eff (Nat × BState σ) Unit) (0, (b0, w')) =
      ((Eff.zoom worldLens (cb.fn (unwires p.e p.s cb.sig.params (slice b.ibuf p.idxBytes (wireSizes cb.sig.params))))
        >>= fun r => respond P p.e p.s cb.sig.ret r (destMany (Buf.txIsr tx) runs bf)) : Eff (Nat × BState σ) Unit)
        (p.idxBytes + wireSizes cb.sig.params, (b0, w')) := by
    have hgi := getIndex_buf hP hS (b := b0) (w := w') (by rw [hi]; omega)
    rw [hi] at hgi
    rw [Eff.bind_ret hgi, at_eq ha, Eff.lift_ok, pure_bind, hh.invoke, call_eq hP hS.sup cb hg.1 hg.2.1]
    have hy := ibufSrc_yields (b := b0) (w := w') (n := wireSizes cb.sig.params) (i := p.idxBytes) (by rw [hi]; omega)
    have hgn := getN_yields hy
    rw [slice_length (by rw [hi]; omega), hi] at hgn
    rw [Eff.bind_ret hgn, hdec.1, Eff.lift_ok, pure_bind]
  cases hfn : cb.fn (unwires p.e p.s cb.sig.params (slice b.ibuf p.idxBytes (wireSizes cb.sig.params))) w' with
  | fault f =>
    have hz : Eff.zoom worldLens (cb.fn (unwires p.e p.s cb.sig.params (slice b.ibuf p.idxBytes (wireSizes cb.sig.params))))
        (p.idxBytes + wireSizes cb.sig.params, (b0, w')) = .fault f := by
      unfold Eff.zoom; simp only [worldLens]; rw [hfn]
    rw [Eff.bind_fault hz] at hblock
    rw [Eff.bind_fault (withPtr_fault hblock)]
  | threw w2 =>
    rw [Eff.bind_threw (zoom_threw (L := worldLens) hfn)] at hblock
    rw [Eff.bind_threw (withPtr_threw (i := p.idxBytes + wireSizes cb.sig.params) (t' := (b0, w2)) hblock), hb0]
  | ret r w2 =>
    have hr := hS.typed cb (mem_of_get hcb) _ _ _ _ hdec.2 hfn
    have hl := response_length (e := p.e) hg hr
    rw [Eff.bind_ret (zoom_ret (L := worldLens) hfn), respond_eq hP hS.sup hg.2.2 hr] at hblock
    obtain ⟨j, h3, h4⟩ := putAll_many hT hmid (bs := response p.e p.s cb.sig.ret r) (b := b0) (u := []) (w := w2)
      (i := p.idxBytes + wireSizes cb.sig.params) ⟨by rw [hnext, hbot]; rfl, by rw [hbot]; omega, slice_zero _ _⟩
      (by rw [hbot, ho, hl]; omega) (by rw [hnext, hbot]; rfl)
    rw [hnext, hbot, Nat.zero_add, Nat.zero_add] at h3
    subst h3
    rw [hnext, Nat.zero_add, List.nil_append] at h4
    have hblock := hblock.trans h4
    rw [Eff.bind_ret (withPtr_ret hblock), hb0]
    show Res.ret () _ = _
    simp only [hS.idx]
    rfl

omit hT in
/-- A `put` which does not complete a request calls nothing. -/
theorem putWith_idle {P : Platform} {b b1 : Buf σ} (call : Eff (BState σ) Unit) (hroom : b.ibufNext < b.ibuf.length) (hpos : 0 < b.loadCount) {x : Byte}
    {w w1 : σ} {st : Status} (hst : st ≠ .resolved) (h : Buf.put P x (b, w) = .ret st (b1, w1)) : Buf.putWith P call x (b, w) = .ret st (b1, w1) := by
  rw [put_stored_raw hroom hpos] at h
  rw [putWith_stored_raw call hroom hpos]
  have hcall : ∀ s : BState σ, (Buf.call P >>= fun _ => pure Status.resolved : Eff (BState σ) Status) s ≠ .ret st (b1, w1) := by
    intro s hs
    cases hc : Buf.call P s with
    | fault f => rw [Eff.bind_fault hc] at hs; cases hs
    | threw t => rw [Eff.bind_threw hc] at hs; cases hs
    | ret a t =>
      rw [Eff.bind_ret hc] at hs
      injection hs with hs
      exact hst hs.symm
  by_cases h1 : (b.stored x).loadCount > 0
  · rw [if_pos h1] at h ⊢
    exact h
  · rw [if_neg h1] at h ⊢
    by_cases h2 : b.indexLoaded = true
    · rw [if_pos h2] at h
      exact absurd h (hcall _)
    · rw [if_neg h2] at h ⊢
      cases hg : withPtr (b.disp.getIndex P ibufSrc) (b.stored x, w) with
      | fault f => rw [Eff.bind_fault hg] at h; cases h
      | threw t => rw [Eff.bind_threw hg] at h; cases h
      | ret index t =>
        rw [Eff.bind_ret hg] at h ⊢
        split at h
        · rename_i h3
          rw [if_pos h3]
          cases ha : b.disp.at index with
          | error f => rw [ha] at h; cases h
          | ok a =>
            rw [ha, Eff.lift_ok, pure_bind] at h
            rw [Eff.lift_ok, pure_bind]
            cases hn : a.inputSize with
            | error f => rw [hn] at h; cases h
            | ok k =>
              rw [hn, Eff.lift_ok, pure_bind] at h
              rw [Eff.lift_ok, pure_bind]
              by_cases h4 : k = 0
              · rw [if_pos h4] at h
                exact absurd h (hcall _)
              · rw [if_neg h4] at h ⊢
                exact h
        · rename_i h3
          rw [if_neg h3]
          exact h

/-- `put`. -/
theorem putMany_core {P : Platform} (hP : P.Valid) {p : Proto σ} {b : Buf σ} (hb : BufOk P p b) (hsh : b.shared = false) {l u : List Byte}
    (hm : RelIn p b l) (hu : Unread b u) (hfit : ∀ cb ∈ p.cbs, retSize cb.sig.ret ≤ b.out.length)
    (hsafe : ∀ cb ∈ p.cbs, DecodeSafeAll P p.e p.s cb.sig.params) {runs : CallPoint → Nat} {bf : Bool}
    (hmid : bf = true → ∀ k, sentSoFar runs k + runs (.beforeStore k) ≤ k) (hres : b.obufNext ≠ 0 → runs .betweenResets ≤ u.length) {i : Nat}
    (hi : i = if b.obufNext = 0 then 0 else runs .betweenResets) (x : Byte) (w : σ) :
    match Buf.put P x ({ b with obufNext := b.obufNext + i }, txAll T (u.take i) w) with
    | .ret s (b1, w1) => if s = .resolved then
        b1.obufNext = 0 ∧ ∀ resp, Unread b1 resp → Buf.putMany P (Buf.txIsr tx) runs bf x (b, w) =
          .ret s ({ b1 with obufNext := sentSoFar runs resp.length }, txAll T (resp.take (sentSoFar runs resp.length)) w1)
        else Buf.putMany P (Buf.txIsr tx) runs bf x (b, w) = .ret s ({ b1 with obufNext := b.obufNext }, w)
    | .threw t => Buf.putMany P (Buf.txIsr tx) runs bf x (b, w) = .threw t
    | .fault f => Buf.putMany P (Buf.txIsr tx) runs bf x (b, w) = .fault f := by
  obtain ⟨n, hn⟩ : ∃ n, n = b.obufNext + i := ⟨_, rfl⟩
  obtain ⟨w', hw'⟩ : ∃ w', w' = txAll T (u.take i) w := ⟨_, rfl⟩
  rw [← hn, ← hw']
  have hb' : BufOk P p { b with obufNext := n } := hb.same (same_next b n)
  have hm' : RelIn p { b with obufNext := n } l := relIn_next hm n
  have hlt : b.ibufNext < b.ibuf.length := by rw [hm.next]; exact hm.lt hb
  have hidle : ∀ {s b1 w1}, s ≠ .resolved → Buf.put P x ({ b with obufNext := n }, w') = .ret s (b1, w1) →
      Buf.putMany P (Buf.txIsr tx) runs bf x (b, w) = .ret s ({ b1 with obufNext := b.obufNext }, w) := by
    intro s b1 w1 hs h
    have := put_next_world hP hb' hm' hs h b.obufNext w
    have h1 : Buf.put P x (b, w) = .ret s ({ b1 with obufNext := b.obufNext }, w) := this
    exact putWith_idle _ hlt hm.pos hs h1
  cases hc : p.classify (l ++ [x]) with
  | more =>
    obtain ⟨b1, h1, _⟩ := put_more hP hm' hb' hc w'
    rw [h1]
    simp only [reduceCtorEq, if_false]
    exact hidle (by simp) h1
  | bad =>
    obtain ⟨b1, h1, _⟩ := put_bad hP hm' hb' hc w'
    rw [h1]
    simp only [reduceCtorEq, if_false]
    exact hidle (by simp) h1
  | request cb args =>
    obtain ⟨hcb, hl, h2, h3, h4⟩ := putWith_request_full hP (Buf.callMany P (Buf.txIsr tx) runs bf) hm hb hc w
    obtain ⟨_, _, h5, _, _⟩ := putWith_request_full hP (Buf.call P) hm' hb' hc w'
    have h5 : Buf.put P x ({ b with obufNext := n }, w') = (Buf.call P >>= fun _ => pure .resolved) ({ b.loaded x with obufNext := n }, w') := h5
    have h2 : Buf.putMany P (Buf.txIsr tx) runs bf x (b, w) = _ := h2
    have hs : Same b (b.loaded x) := ⟨rfl, rfl, (stored_same b x).ilen, rfl, rfl⟩
    have hbl := hb.same hs
    have hg := hb.serves.sig cb hcb
    have hdec : Decodes P p cb args := readAll_decodeSafe hP hb.serves.sup hg.1 hg.2.1 (hsafe cb hcb) hl
    have hout : (b.loaded x).out = b.out := by
      show (if b.shared = true then _ else _) = if b.shared = true then _ else _
      rw [hsh]
      rfl
    have hul : Unread (b.loaded x) u := ⟨hu.bottom, by rw [hout]; exact hu.le, by rw [hout]; exact hu.bytes⟩
    have hreset : times (Buf.txIsr tx) (runs .betweenResets) ({ b.loaded x with obufBottom := 0 }, w) =
        .ret () ({ b.loaded x with obufBottom := 0, obufNext := n }, w') := by
      by_cases h0 : b.obufNext = 0
      · rw [if_pos h0] at hi
        rw [times_none _ (by unfold Buf.isLoaded; show (b.obufNext != 0) = false; simp [h0]), hw', hn, hi]
        rfl
      · rw [if_neg h0] at hi
        rw [times_any hT _ 0 hul (hres h0) (fun j _ => by show b.obufNext + j ≠ 0; omega), hw', hn, hi]
        rfl
    have hmany := callMany_buf hT hP hbl.serves h3 (hbl.room cb hcb) (by rw [h4]; exact hdec) (by rw [hout]; exact hfit cb hcb) hmid hreset
    have hone := call_buf (b := { b.loaded x with obufNext := n }) hP hbl.serves h3 (hbl.room cb hcb) (by
      show Decodes P p cb (slice (b.loaded x).ibuf _ _)
      rw [h4]; exact hdec) w'
    rw [h4] at hmany
    rw [show ({ b.loaded x with obufNext := n } : Buf σ).ibuf = (b.loaded x).ibuf from rfl, h4] at hone
    rw [h5, h2]
    cases hfn : cb.fn (unwires p.e p.s cb.sig.params args) w' with
    | fault f =>
      rw [hfn] at hone hmany
      rw [Eff.bind_fault hone, Eff.bind_fault hmany]
    | threw w2 =>
      rw [hfn] at hone hmany
      rw [Eff.bind_threw hone, Eff.bind_threw hmany]
    | ret r w2 =>
      rw [hfn] at hone hmany
      have hrl := response_length (e := p.e) hg (hb.serves.typed cb hcb _ _ _ _ hdec.2 hfn)
      have hfit' : (response p.e p.s cb.sig.ret r).length ≤ (b.loaded x).out.length := by rw [hrl, hout]; exact hfit cb hcb
      have hone' := hone.trans (if_pos hfit')
      rw [Eff.bind_ret hone', Eff.bind_ret hmany]
      show if Status.resolved = .resolved then _ else _
      rw [if_pos rfl]
      refine ⟨by unfold Buf.finish Buf.pushAll; split <;> rfl, ?_⟩
      intro resp hresp
      have e : ({ b.loaded x with obufNext := n } : Buf σ).finish p.idxBytes (response p.e p.s cb.sig.ret r) =
        (b.loaded x).finish p.idxBytes (response p.e p.s cb.sig.ret r) := rfl
      rw [e] at hresp ⊢
      have := unread_unique (finish_unread hfit') hresp
      subst this
      rfl

end

end Upd
