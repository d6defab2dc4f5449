import Verif.Lemmas.Dispatcher
import Verif.Model.Buffered
import Verif.Spec.History

namespace Upd
open Spec

variable {σ : Type}

/-- The dispatcher implements the protocol: its actions hold the callbacks of the protocol, whose types are supported, and announce
the right input sizes. -/
structure Serves (P : Platform) (p : Proto σ) (D : Dispatcher σ) : Prop where
  e : D.e = p.e
  s : D.s = p.s
  idx : D.idxBytes = p.idxBytes
  pos : 1 ≤ p.idxBytes
  sup : Supported P p.e p.s
  size : D.size = p.cbs.length
  act : ∀ (i : Nat) (cb : Callback σ), p.cbs[i]? = some cb → ∃ a : Action σ, D.acts[i]? = some a ∧ a.Holds p.e p.s cb ∧
    a.inputSize = .ok (wireSizes cb.sig.params)
  sig : ∀ cb ∈ p.cbs, SigOk cb.sig
  typed : ∀ cb ∈ p.cbs, WellTyped P p.s cb

/-- The bytes are decoded as expected. -/
def Decodes (P : Platform) (p : Proto σ) (cb : Callback σ) (bs : List Byte) : Prop :=
  readAll P p.e p.s cb.sig.params bs 0 = .ok (unwires p.e p.s cb.sig.params bs) ∧
    Val.FitsAll (Safe P p.s) cb.sig.params (unwires p.e p.s cb.sig.params bs)

theorem ibufSrc_yields {b : Buf σ} {w : σ} : ∀ {n i : Nat}, i + n ≤ b.ibuf.length →
    Yields ibufSrc (i, (b, w)) (slice b.ibuf i n) (i + n, (b, w))
  | 0, i, _ => by rw [slice_zero]; exact .nil _
  | n + 1, i, h => by
    rw [slice_succ (by omega)]
    have := ibufSrc_yields (b := b) (w := w) (n := n) (i := i + 1) (by omega)
    rw [show i + 1 + n = i + (n + 1) by omega] at this
    refine .cons ?_ this
    simp only [ibufSrc]
    rw [List.getElem?_eq_getElem (by omega)]

/-- The output buffer after several `obuf_begin()[m_obuf_bottom++] = byte`. -/
def Buf.pushAll (b : Buf σ) (bs : List Byte) : Buf σ :=
  if b.shared then { b with ibuf := splice b.ibuf b.obufBottom bs, obufBottom := b.obufBottom + bs.length }
  else { b with obuf := splice b.obuf b.obufBottom bs, obufBottom := b.obufBottom + bs.length }

theorem pushOut_ok {b : Buf σ} {x : Byte} (h : b.obufBottom < b.out.length) : b.pushOut x = .ok (b.pushAll [x]) := by
  unfold Buf.pushOut
  rw [if_pos h]
  unfold Buf.out at h
  unfold Buf.pushAll
  split at h <;> rename_i hs
  · rw [if_pos hs, if_pos hs, ← splice_set_cons (by simp; omega), splice_nil]; rfl
  · rw [if_neg hs, if_neg hs, ← splice_set_cons (by simp; omega), splice_nil]; rfl

theorem pushAll_nil (b : Buf σ) : b.pushAll [] = b := by
  unfold Buf.pushAll
  split <;> simp [splice_nil]

theorem pushAll_out {b : Buf σ} {bs : List Byte} : (b.pushAll bs).out = splice b.out b.obufBottom bs := by
  unfold Buf.pushAll Buf.out
  cases b.shared <;> simp

theorem pushAll_bottom {b : Buf σ} {bs : List Byte} : (b.pushAll bs).obufBottom = b.obufBottom + bs.length := by
  unfold Buf.pushAll
  split <;> rfl

theorem splice_one {m : Mem} {off : Nat} {x : Byte} (h : off < m.length) : splice m off [x] = m.set off x := by
  rw [← splice_set_cons (by simp; omega), splice_nil]

theorem pushAll_cons {b : Buf σ} {x : Byte} {bs : List Byte} (h : b.obufBottom + (bs.length + 1) ≤ b.out.length) :
    (b.pushAll [x]).pushAll bs = b.pushAll (x :: bs) := by
  unfold Buf.out at h
  unfold Buf.pushAll
  cases hs : b.shared
  · simp only [hs, Bool.false_eq_true, if_false, List.length_cons, List.length_nil, Nat.zero_add] at h ⊢
    rw [splice_one (by omega), splice_set_cons h]
    congr 1; omega
  · simp only [hs, if_true, List.length_cons, List.length_nil, Nat.zero_add] at h ⊢
    rw [splice_one (by omega), splice_set_cons h]
    congr 1; omega

theorem pushAll_out_length {b : Buf σ} {bs : List Byte} (h : b.obufBottom + bs.length ≤ b.out.length) :
    (b.pushAll bs).out.length = b.out.length := by
  rw [pushAll_out, splice_length h]

theorem putAll_obuf {w : σ} {i : Nat} : ∀ {bs : List Byte} {b : Buf σ}, b.obufBottom + bs.length ≤ b.out.length →
    putAll obufDest bs (i, (b, w)) = .ret () (i, (b.pushAll bs, w))
  | [], b, _ => by rw [pushAll_nil]; rfl
  | x :: bs, b, h => by
    simp only [List.length_cons] at h
    have h1 : obufDest x (i, (b, w)) = .ret () (i, (b.pushAll [x], w)) := by
      simp only [obufDest]; rw [pushOut_ok (by omega)]
    show (obufDest x >>= fun _ => putAll obufDest bs) (i, (b, w)) = _
    rw [Eff.bind_ret h1, putAll_obuf (by
      rw [pushAll_out_length (by simp; omega), pushAll_bottom]; simp; omega), pushAll_cons h]

theorem putAll_obuf_fault {w : σ} {i : Nat} : ∀ {bs : List Byte} {b : Buf σ}, b.obufBottom ≤ b.out.length →
    b.out.length < b.obufBottom + bs.length → putAll obufDest bs (i, (b, w)) = .fault .obufOverrun
  | [], b, h0, h => by simp at h; omega
  | x :: bs, b, h0, h => by
    simp only [List.length_cons] at h
    show (obufDest x >>= fun _ => putAll obufDest bs) (i, (b, w)) = _
    by_cases hb : b.obufBottom < b.out.length
    · have h1 : obufDest x (i, (b, w)) = .ret () (i, (b.pushAll [x], w)) := by
        simp only [obufDest]; rw [pushOut_ok hb]
      have hlen := pushAll_out_length (b := b) (bs := [x]) (by simp; omega)
      rw [Eff.bind_ret h1, putAll_obuf_fault (by rw [hlen, pushAll_bottom]; simp; omega)
        (by rw [hlen, pushAll_bottom]; simp; omega)]
    · have h1 : obufDest x (i, (b, w)) = .fault .obufOverrun := by
        simp only [obufDest, Buf.pushOut]; rw [if_neg hb]
      rw [Eff.bind_fault h1]

/-- State after `call()`, which outputs `resp`. -/
def Buf.finish (b : Buf σ) (n : Nat) (resp : List Byte) : Buf σ :=
  { ({ b with obufBottom := 0, obufNext := 0 } : Buf σ).pushAll resp with indexLoaded := false, loadCount := n, ibufNext := 0 }

theorem withPtr_ret {τ α : Type} {x : Eff (Nat × τ) α} {t t' : τ} {i : Nat} {a : α} (h : x (0, t) = .ret a (i, t')) :
    withPtr x t = .ret a t' := by
  unfold withPtr; rw [h]

theorem withPtr_threw {τ α : Type} {x : Eff (Nat × τ) α} {t t' : τ} {i : Nat} (h : x (0, t) = .threw (i, t')) :
    withPtr x t = .threw t' := by
  unfold withPtr; rw [h]

theorem withPtr_fault {τ α : Type} {x : Eff (Nat × τ) α} {t : τ} {f : Fault} (h : x (0, t) = .fault f) :
    withPtr x t = .fault f := by
  unfold withPtr; rw [h]

theorem getIndex_buf {P : Platform} (hP : P.Valid) {p : Proto σ} {D : Dispatcher σ} (hS : Serves P p D) {b : Buf σ} {w : σ}
    (hroom : p.idxBytes ≤ b.ibuf.length) :
    D.getIndex P ibufSrc (0, (b, w)) = .ret (wireValue p.e (slice b.ibuf 0 p.idxBytes)) (p.idxBytes, (b, w)) := by
  have hy := ibufSrc_yields (b := b) (w := w) (n := p.idxBytes) (i := 0) (by omega)
  have hg := getN_yields hy
  rw [slice_length (by omega)] at hg
  rw [getIndex_eq hP (by rw [hS.e, hS.s]; exact hS.sup) (by rw [hS.idx]; exact hS.pos), hS.idx, hS.e, Eff.bind_ret hg,
    Nat.zero_add]
  rfl

theorem mem_of_get {α : Type} {l : List α} {i : Nat} {a : α} (h : l[i]? = some a) : a ∈ l := by
  obtain ⟨h1, rfl⟩ := List.getElem?_eq_some_iff.1 h
  exact List.getElem_mem _

/-- `call()` on a buffer which starts with a whole request. -/
theorem call_buf {P : Platform} (hP : P.Valid) {p : Proto σ} {b : Buf σ} (hS : Serves P p b.disp) {cb : Callback σ}
    (hcb : p.cbs[wireValue p.e (slice b.ibuf 0 p.idxBytes)]? = some cb)
    (hroom : p.idxBytes + wireSizes cb.sig.params ≤ b.ibuf.length)
    (hdec : Decodes P p cb (slice b.ibuf p.idxBytes (wireSizes cb.sig.params))) (w : σ) :
    Buf.call P (b, w) =
      match cb.fn (unwires p.e p.s cb.sig.params (slice b.ibuf p.idxBytes (wireSizes cb.sig.params))) w with
      | .ret r w' =>
        if (response p.e p.s cb.sig.ret r).length ≤ b.out.length then
          .ret () (b.finish p.idxBytes (response p.e p.s cb.sig.ret r), w')
        else .fault .obufOverrun
      | .threw w' => .threw ({ b with obufBottom := 0, obufNext := 0 }, w')
      | .fault f => .fault f := by
  have hg := hS.sig cb (mem_of_get hcb)
  obtain ⟨a, ha, hh, _⟩ := hS.act _ _ hcb
  have b0 : ∃ b0 : Buf σ, b0 = { b with obufBottom := 0, obufNext := 0 } := ⟨_, rfl⟩
  obtain ⟨b0, hb0⟩ := b0
  have hi : b0.ibuf = b.ibuf := by rw [hb0]
  have hD : b0.disp = b.disp := by rw [hb0]
  have ho : b0.out = b.out := by rw [hb0]; rfl
  have hbot : b0.obufBottom = 0 := by rw [hb0]
  have h1 : (modifyBuf fun b => { b with obufBottom := 0, obufNext := 0 }) (b, w) = .ret () (b0, w) := by
    rw [hb0]; rfl
  unfold Buf.call
  rw [Eff.bind_ret h1]
  show (withPtr _ >>= _) (b0, w) = _
  simp only [hD]
  -- the block
  have hblock : (do
      let index ← b.disp.getIndex P ibufSrc
      let a ← Eff.lift (b.disp.at index)
      a.invoke P worldLens ibufSrc obufDest : Eff (Nat × BState σ) Unit) (0, (b0, w)) =
      ((Eff.zoom worldLens (cb.fn (unwires p.e p.s cb.sig.params (slice b.ibuf p.idxBytes (wireSizes cb.sig.params))))
        >>= fun r => respond P p.e p.s cb.sig.ret r obufDest) : Eff (Nat × BState σ) Unit)
        (p.idxBytes + wireSizes cb.sig.params, (b0, w)) := by
    have hgi := getIndex_buf hP hS (b := b0) (w := w) (by rw [hi]; omega)
    rw [hi] at hgi
    rw [Eff.bind_ret hgi, at_eq ha, Eff.lift_ok, pure_bind, hh.invoke, call_eq hP hS.sup cb hg.1 hg.2.1]
    have hy := ibufSrc_yields (b := b0) (w := w) (n := wireSizes cb.sig.params) (i := p.idxBytes) (by rw [hi]; omega)
    have hgn := getN_yields hy
    rw [slice_length (by rw [hi]; omega), hi] at hgn
    rw [Eff.bind_ret hgn, hdec.1, Eff.lift_ok, pure_bind]
  cases hfn : cb.fn (unwires p.e p.s cb.sig.params (slice b.ibuf p.idxBytes (wireSizes cb.sig.params))) w with
  | fault f =>
    have hz : Eff.zoom worldLens (cb.fn (unwires p.e p.s cb.sig.params (slice b.ibuf p.idxBytes (wireSizes cb.sig.params))))
        (p.idxBytes + wireSizes cb.sig.params, (b0, w)) = .fault f := by
      unfold Eff.zoom; simp only [worldLens]; rw [hfn]
    rw [Eff.bind_fault hz] at hblock
    rw [Eff.bind_fault (withPtr_fault hblock)]
  | threw w' =>
    rw [Eff.bind_threw (zoom_threw (L := worldLens) hfn)] at hblock
    rw [Eff.bind_threw (withPtr_threw (i := p.idxBytes + wireSizes cb.sig.params) (t' := (b0, w')) hblock), hb0]
  | ret r w' =>
    have hr := hS.typed cb (mem_of_get hcb) _ _ _ _ hdec.2 hfn
    rw [Eff.bind_ret (zoom_ret (L := worldLens) hfn), respond_eq hP hS.sup hg.2.2 hr] at hblock
    simp only
    by_cases hfit : (response p.e p.s cb.sig.ret r).length ≤ b.out.length
    · rw [if_pos hfit]
      have := putAll_obuf (w := w') (i := p.idxBytes + wireSizes cb.sig.params) (b := b0)
        (bs := response p.e p.s cb.sig.ret r) (by rw [ho, hbot]; omega)
      rw [show worldLens.put w' (p.idxBytes + wireSizes cb.sig.params, (b0, w)) =
        (p.idxBytes + wireSizes cb.sig.params, (b0, w')) from rfl, this] at hblock
      rw [Eff.bind_ret (withPtr_ret hblock), hb0]
      show Res.ret () _ = _
      simp only [hS.idx]
      rfl
    · rw [if_neg hfit]
      have := putAll_obuf_fault (w := w') (i := p.idxBytes + wireSizes cb.sig.params) (b := b0)
        (bs := response p.e p.s cb.sig.ret r) (by rw [hbot]; omega) (by rw [ho, hbot]; omega)
      rw [show worldLens.put w' (p.idxBytes + wireSizes cb.sig.params, (b0, w)) =
        (p.idxBytes + wireSizes cb.sig.params, (b0, w')) from rfl, this] at hblock
      rw [Eff.bind_fault (withPtr_fault hblock)]

end Upd
