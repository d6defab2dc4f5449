import Verif.Lemmas.Put

/-! Helper lemmas: decoding arbitrary bytes either succeeds or is one of the two faults of C07. -/

namespace Upd
open Spec

/-- The two ways in which decoding may fault (see C07). -/
def DecodeFault (f : Fault) : Prop := f = .signedOverflow ∨ f = .badBool

mutual
theorem readAs_cases {P : Platform} (hP : P.Valid) {e : Endian} {s : Mode} (hs : Supported P e s) :
    ∀ (t : Ty) (mem : Mem) (off : Nat), t.WF → Loose t → off + t.serSize ≤ mem.length →
      (∃ v, readAs P e s t mem off = .ok v ∧ v.Fits (Safe P s) t) ∨
      ∃ f, readAs P e s t mem off = .error f ∧ DecodeFault f
  | .bool, mem, off, _, _, h => by
    simp only [Ty.serSize] at h
    rw [readAs, readBool, Mem.rd_ok (by omega), except_bind_ok]
    split
    · split
      · exact Or.inl ⟨_, rfl, by simp [Val.Fits]⟩
      · split
        · exact Or.inl ⟨_, rfl, by simp [Val.Fits]⟩
        · exact Or.inr ⟨_, rfl, Or.inr rfl⟩
    · exact Or.inl ⟨_, rfl, by simp [Val.Fits]⟩
  | .uint n, mem, off, hw, hl, h => by
    obtain ⟨v, hv⟩ := readAs_total hP hs (.uint n) mem off hw hl (by simp [DecodeSafe]) h
    exact Or.inl ⟨v, hv⟩
  | .sint k, mem, off, hw, _, h => by
    simp only [Ty.serSize] at h
    simp only [Ty.WF] at hw
    have hr := readSint_spec hP hs hw h
    rw [readAs]
    split at hr
    · rw [hr]; exact Or.inr ⟨_, rfl, Or.inl rfl⟩
    · rw [hr]; exact Or.inl ⟨_, rfl, by simp only [Val.Fits]; exact (readSint_safe hP hs hw h hr).2⟩
  | .arr t n, mem, off, hw, hl, h => by
    simp only [Ty.serSize] at h
    simp only [Ty.WF] at hw
    simp only [Loose] at hl
    have : ∀ m off, off + m * t.sizeof ≤ mem.length →
        (∃ vs, readLoop (readAs P e s t) t.sizeof mem m off = .ok vs ∧ vs.length = m ∧ ∀ v ∈ vs, v.Fits (Safe P s) t) ∨
        ∃ f, readLoop (readAs P e s t) t.sizeof mem m off = .error f ∧ DecodeFault f := by
      intro m
      induction m with
      | zero => intro off _; exact Or.inl ⟨[], rfl, rfl, by simp⟩
      | succ m ih =>
        intro off h
        rw [Nat.succ_mul] at h
        rw [readLoop]
        rcases readAs_cases hP hs t mem off hw.1 hl.1 (by omega) with ⟨v, hv, hf⟩ | ⟨f, hv, hf⟩
        · rw [hv, except_bind_ok]
          rcases ih (off + t.sizeof) (by omega) with ⟨vs, hvs, hlen, hfs⟩ | ⟨f, hvs, hf⟩
          · rw [hvs]
            refine Or.inl ⟨v :: vs, rfl, by simp [hlen], ?_⟩
            intro w hw
            rcases List.mem_cons.mp hw with rfl | hw
            · exact hf
            · exact hfs w hw
          · rw [hvs]; exact Or.inr ⟨f, rfl, hf⟩
        · rw [hv]; exact Or.inr ⟨f, rfl, hf⟩
    rw [readAs]
    rcases this n off h with ⟨vs, hvs, hlen, hfs⟩ | ⟨f, hvs, hf⟩
    · rw [hvs]; exact Or.inl ⟨.arr vs, rfl, by simp only [Val.Fits]; exact ⟨hlen, hfs⟩⟩
    · rw [hvs]; exact Or.inr ⟨f, rfl, hf⟩
  | .user _ fs, mem, off, hw, hl, h => by
    simp only [Ty.serSize] at h
    simp only [Ty.WF] at hw
    simp only [Loose] at hl
    rw [readAs]
    rcases readAll_cases hP hs fs mem off hw.2 hl h with ⟨vs, hvs, hf⟩ | ⟨f, hvs, hf⟩
    · rw [hvs]; exact Or.inl ⟨.user vs, rfl, by simp only [Val.Fits]; exact hf⟩
    · rw [hvs]; exact Or.inr ⟨f, rfl, hf⟩

theorem readAll_cases {P : Platform} (hP : P.Valid) {e : Endian} {s : Mode} (hs : Supported P e s) :
    ∀ (ts : List Ty) (mem : Mem) (off : Nat), Ty.WFs ts → LooseAll ts → off + Ty.serSizes ts ≤ mem.length →
      (∃ vs, readAll P e s ts mem off = .ok vs ∧ Val.FitsAll (Safe P s) ts vs) ∨
      ∃ f, readAll P e s ts mem off = .error f ∧ DecodeFault f
  | [], mem, off, _, _, _ => Or.inl ⟨[], rfl, by simp [Val.FitsAll]⟩
  | t :: ts, mem, off, hw, hl, h => by
    simp only [Ty.serSizes] at h
    simp only [Ty.WFs] at hw
    simp only [LooseAll] at hl
    rw [readAll]
    rcases readAs_cases hP hs t mem off hw.1 hl.1 (by omega) with ⟨v, hv, hf⟩ | ⟨f, hv, hf⟩
    · rw [hv, except_bind_ok]
      rcases readAll_cases hP hs ts mem (off + t.serSize) hw.2 hl.2 (by omega) with ⟨vs, hvs, hfs⟩ | ⟨f, hvs, hf⟩
      · rw [hvs]; exact Or.inl ⟨v :: vs, rfl, by simp only [Val.FitsAll]; exact ⟨hf, hfs⟩⟩
      · rw [hvs]; exact Or.inr ⟨f, rfl, hf⟩
    · rw [hv]; exact Or.inr ⟨f, rfl, hf⟩
end

variable {σ : Type}

/-- Argument bytes are either decoded as expected or make decoding fault. -/
theorem decodes_cases {P : Platform} (hP : P.Valid) {p : Proto σ} (hs : Supported P p.e p.s) {cb : Callback σ}
    (hg : SigOk cb.sig) {bs : List Byte} (h : bs.length = wireSizes cb.sig.params) :
    Decodes P p cb bs ∨ ∃ f, readAll P p.e p.s cb.sig.params bs 0 = .error f ∧ DecodeFault f := by
  rcases readAll_cases hP hs cb.sig.params bs 0 hg.1 (packedAll_loose _ hg.2.1)
    (by rw [packedAll_serSizes _ hg.2.1]; omega) with ⟨vs, hvs, hf⟩ | h'
  · have := readAll_unwire hP hs cb.sig.params bs 0 vs hg.1 hg.2.1 (by omega) hvs
    rw [slice_all h] at this
    subst this
    exact Or.inl ⟨hvs, hf⟩
  · exact Or.inr h'

theorem decodes_args {P : Platform} (hP : P.Valid) {p : Proto σ} (hs : Supported P p.e p.s) {cb : Callback σ}
    (hg : SigOk cb.sig) {args : List Val} (hf : Val.FitsAll (Safe P p.s) cb.sig.params args) :
    Decodes P p cb (wires p.e p.s cb.sig.params args) := by
  have h1 := unwires_wires hP hs hg.1 hg.2.1 hf
  exact ⟨by rw [h1]; exact readAll_wires hP hs hg.1 hg.2.1 hf, by rw [h1]; exact hf⟩

/-- `call()` when decoding faults. -/
theorem call_buf_fault {P : Platform} (hP : P.Valid) {p : Proto σ} {b : Buf σ} (hS : Serves P p b.disp) {cb : Callback σ}
    (hcb : p.cbs[wireValue p.e (slice b.ibuf 0 p.idxBytes)]? = some cb)
    (hroom : p.idxBytes + wireSizes cb.sig.params ≤ b.ibuf.length) {f : Fault}
    (hdec : readAll P p.e p.s cb.sig.params (slice b.ibuf p.idxBytes (wireSizes cb.sig.params)) 0 = .error f) (w : σ) :
    Buf.call P (b, w) = .fault f := by
  have hg := hS.sig cb (mem_of_get hcb)
  obtain ⟨a, ha, hh, _⟩ := hS.act _ _ hcb
  obtain ⟨b0, hb0⟩ : ∃ b0 : Buf σ, b0 = { b with obufBottom := 0, obufNext := 0 } := ⟨_, rfl⟩
  have hi : b0.ibuf = b.ibuf := by rw [hb0]
  have hD : b0.disp = b.disp := by rw [hb0]
  have h1 : (modifyBuf fun b => { b with obufBottom := 0, obufNext := 0 }) (b, w) = .ret () (b0, w) := by
    rw [hb0]; rfl
  unfold Buf.call
  rw [Eff.bind_ret h1]
  show (withPtr _ >>= _) (b0, w) = _
  simp only [hD]
  have hblock : (do
      let index ← b.disp.getIndex P ibufSrc
      let a ← Eff.lift (b.disp.at index)
      a.invoke P worldLens ibufSrc obufDest : Eff (Nat × BState σ) Unit) (0, (b0, w)) = .fault f := by
    have hgi := getIndex_buf hP hS (b := b0) (w := w) (by rw [hi]; omega)
    rw [hi] at hgi
    rw [Eff.bind_ret hgi, at_eq ha, Eff.lift_ok, pure_bind, hh.invoke, call_eq hP hS.sup cb hg.1 hg.2.1]
    have hy := ibufSrc_yields (b := b0) (w := w) (n := wireSizes cb.sig.params) (i := p.idxBytes) (by rw [hi]; omega)
    have hgn := getN_yields hy
    rw [slice_length (by rw [hi]; omega), hi] at hgn
    rw [Eff.bind_ret hgn, hdec]
    rfl
  rw [Eff.bind_fault (withPtr_fault hblock)]

/-- Everything that `put` may do. -/
theorem put_cases {P : Platform} (hP : P.Valid) {p : Proto σ} {b : Buf σ} {pending : List Byte} (h : RelIn p b pending)
    (hb : BufOk P p b) (x : Byte) (w : σ) :
    (p.classify (pending ++ [x]) = .more ∧
      ∃ b', Buf.put P x (b, w) = .ret .loading (b', w) ∧ RelIn p b' (pending ++ [x]) ∧ Same b b' ∧ OutSame b b') ∨
    (p.classify (pending ++ [x]) = .bad ∧
      ∃ b', Buf.put P x (b, w) = .ret .dropped (b', w) ∧ RelIn p b' [] ∧ Same b b' ∧ OutSame b b') ∨
    (∃ cb args, p.classify (pending ++ [x]) = .request cb args ∧ cb ∈ p.cbs ∧ args.length = wireSizes cb.sig.params ∧
      ((Decodes P p cb args ∧
        ((∃ r w', cb.fn (unwires p.e p.s cb.sig.params args) w = .ret r w' ∧ RetOk P p.s cb.sig.ret r ∧
            ((∃ b', Buf.put P x (b, w) = .ret .resolved (b', w') ∧ RelIn p b' [] ∧
                Unread b' (response p.e p.s cb.sig.ret r) ∧ Same b b') ∨
              (b.out.length < retSize cb.sig.ret ∧ Buf.put P x (b, w) = .fault .obufOverrun))) ∨
          (∃ w' b', cb.fn (unwires p.e p.s cb.sig.params args) w = .threw w' ∧ Buf.put P x (b, w) = .threw (b', w')) ∨
          (∃ f, cb.fn (unwires p.e p.s cb.sig.params args) w = .fault f ∧ Buf.put P x (b, w) = .fault f))) ∨
      (∃ f, DecodeFault f ∧ readAll P p.e p.s cb.sig.params args 0 = .error f ∧ Buf.put P x (b, w) = .fault f))) := by
  cases hc : p.classify (pending ++ [x]) with
  | more => exact Or.inl ⟨rfl, put_more hP h hb hc w⟩
  | bad => exact Or.inr (Or.inl ⟨rfl, put_bad hP h hb hc w⟩)
  | request cb args =>
    obtain ⟨hm, hl, b1, h1, h2, h3, h4⟩ := put_request hP h hb hc w
    refine Or.inr (Or.inr ⟨cb, args, rfl, hm, hl, ?_⟩)
    have hg := hb.serves.sig cb hm
    rcases decodes_cases hP hb.serves.sup hg hl with hdec | ⟨f, hf, hdf⟩
    · refine Or.inl ⟨hdec, ?_⟩
      obtain ⟨b', hs, heq⟩ := put_request_eq hP h hb hc hdec w
      cases hfn : cb.fn (unwires p.e p.s cb.sig.params args) w with
      | fault f => rw [hfn] at heq; exact Or.inr (Or.inr ⟨f, rfl, heq⟩)
      | threw w' => rw [hfn] at heq; exact Or.inr (Or.inl ⟨w', _, rfl, heq⟩)
      | ret r w' =>
        rw [hfn] at heq
        have hr := hb.serves.typed cb hm _ _ _ _ hdec.2 hfn
        refine Or.inl ⟨r, w', rfl, hr, ?_⟩
        simp only at heq
        split at heq
        · rename_i hfit
          exact Or.inl ⟨_, heq, finish_relIn hb.serves.pos, finish_unread hfit, hs.trans (finish_same hfit)⟩
        · rename_i hfit
          rw [response_length hg hr, hs.outLen] at hfit
          exact Or.inr ⟨by omega, heq⟩
    · refine Or.inr ⟨f, hdf, hf, ?_⟩
      have hb1 := hb.same h2
      rw [h1, Eff.bind_fault (call_buf_fault hP hb1.serves h3 (hb1.room cb hm) (by rw [h4]; exact hf) w)]

end Upd
