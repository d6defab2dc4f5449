import Verif.Spec.Preempt
import Verif.Props.InterruptExact

/-!
# Lemmas for C92
-/

namespace Upd

open Spec

variable {σ : Type}
variable {P : Platform} {K : Keyring} {f : Features} {defs : Nat → List Val → Eff σ (Option Val)}

theorem unread_left {b : Buf σ} {out : List Byte} (h : Unread b out) : b.left = out := by
  have h1 := h.bottom
  have h2 := h.bytes
  unfold Buf.left
  rw [show b.obufBottom - b.obufNext = out.length by omega]
  exact h2

theorem unread_nil {b : Buf σ} {out : List Byte} (h : Unread b out) (hl : b.isLoaded = false) : out = [] := by
  rw [unread_isLoaded h] at hl
  cases out with
  | nil => rfl
  | cons x out => cases hl

theorem unread_ne {b : Buf σ} {out : List Byte} (h : Unread b out) (hl : b.obufNext ≠ b.obufBottom) : out ≠ [] := by
  rintro rfl
  exact hl (by simpa using h.bottom)

theorem ne_unread {b : Buf σ} {out : List Byte} (h : Unread b out) (hl : out ≠ []) : b.obufNext ≠ b.obufBottom := by
  have := h.bottom
  cases out with
  | nil => exact absurd rfl hl
  | cons x out => simp at this; omega

theorem differs_half (c : Bool) (b : Buf σ) : b.differs c (b.half c) = true ↔ b.obufNext ≠ b.obufBottom := by
  unfold Buf.differs Buf.half
  cases c <;> simp

/-- A `put` which does not complete a request looks neither at `m_obuf_next` nor at the rest of the world. -/
theorem put_next_world {p : Proto σ} (hP : P.Valid) {b b1 : Buf σ} {l : List Byte} (hb : BufOk P p b) (hm : RelIn p b l) {x : Byte} {w w1 : σ}
    {st : Status} (hst : st ≠ .resolved) (h : Buf.put P x (b, w) = .ret st (b1, w1)) (n : Nat) (w2 : σ) :
    Buf.put P x ({ b with obufNext := n }, w2) = .ret st ({ b1 with obufNext := n }, w2) := by
  have hb' : BufOk P p { b with obufNext := n } := hb.same (same_next b n)
  rw [put_stored hm hb] at h
  rw [put_stored (relIn_next hm n) hb']
  have e1 : (({ b with obufNext := n } : Buf σ).stored x).loadCount = (b.stored x).loadCount := rfl
  have e2 : ({ b with obufNext := n } : Buf σ).disp = b.disp := rfl
  have e3 : ({ b with obufNext := n } : Buf σ).indexLoaded = b.indexLoaded := rfl
  rw [e1, e2, e3]
  have hcall : ∀ s : BState σ, (Buf.call P >>= fun _ => pure Status.resolved : Eff (BState σ) Status) s ≠ .ret st (b1, w1) := by
    intro s hs
    cases hc : Buf.call P s with
    | fault f => rw [Eff.bind_fault hc] at hs; cases hs
    | threw t => rw [Eff.bind_threw hc] at hs; cases hs
    | ret a t =>
      rw [Eff.bind_ret hc] at hs
      injection hs with hs
      exact hst hs.symm
  by_cases h1 : (b.stored x).loadCount > 0
  · rw [if_pos h1] at h ⊢
    cases h
    rfl
  · rw [if_neg h1] at h ⊢
    by_cases h2 : b.indexLoaded = true
    · rw [if_pos h2] at h
      exact absurd h (hcall _)
    · rw [if_neg h2] at h ⊢
      have hroom : p.idxBytes ≤ (b.stored x).ibuf.length := by rw [(stored_same b x).ilen]; exact hb.idxRoom
      have g1 := withPtr_ret (getIndex_buf hP hb.serves (b := b.stored x) (w := w) hroom)
      have g2 := withPtr_ret (getIndex_buf hP hb.serves (b := ({ b with obufNext := n } : Buf σ).stored x) (w := w2) hroom)
      rw [Eff.bind_ret g1] at h
      rw [Eff.bind_ret g2]
      have e4 : (({ b with obufNext := n } : Buf σ).stored x).ibuf = (b.stored x).ibuf := rfl
      rw [e4]
      split at h
      · rename_i h3
        rw [if_pos h3]
        cases ha : b.disp.at (wireValue p.e (slice (b.stored x).ibuf 0 p.idxBytes)) with
        | error f => rw [ha] at h; cases h
        | ok a =>
          rw [ha, Eff.lift_ok, pure_bind] at h
          rw [Eff.lift_ok, pure_bind]
          cases hn : a.inputSize with
          | error f => rw [hn] at h; cases h
          | ok k =>
            rw [hn, Eff.lift_ok, pure_bind] at h
            rw [Eff.lift_ok, pure_bind]
            by_cases h4 : k = 0
            · rw [if_pos h4] at h
              exact absurd h (hcall _)
            · rw [if_neg h4] at h ⊢
              cases h
              rfl
      · rename_i h3
        rw [if_neg h3]
        cases h
        rfl

/-- With responses which fit, safe decoding and functions which return, `put` returns. -/
theorem put_returns (h : Setting P K f defs) (ho : ResponsesFit K false) (hs : AllDecodeSafe P K)
    (hd : ∀ d ∈ K.decls, ∀ args w, ∃ r w', defs d.name args w = .ret r w') {b : Buf σ} {w : σ} (hr : Reachable P K f defs false (b, w)) (x : Byte) :
    ∃ st b' w', Buf.put P x (b, w) = .ret st (b', w') ∧
      ((st ≠ .resolved ∧ OutSame b b' ∧ b'.out = b.out) ∨ (st = .resolved ∧ ∃ out, Unread b' out)) := by
  obtain ⟨hb, hlen, hsh, m, hm⟩ := reachable_inv h hr
  have hmem : ∀ cb ∈ (protoOf K defs).cbs, ∃ d ∈ K.decls, cb = ⟨d.sig, defs d.name⟩ := by
    intro cb hcb
    obtain ⟨d, h1, h2⟩ := List.mem_map.mp hcb
    exact ⟨d, h1, h2.symm⟩
  have := put_outcome h.valid hm hb x w
  revert this
  cases he : Buf.put P x (b, w) with
  | threw t =>
    rintro ⟨cb, hcb, args, w1, w2, h1⟩
    obtain ⟨d, h2, rfl⟩ := hmem cb hcb
    obtain ⟨r, w', h3⟩ := hd d h2 args w1
    rw [show (⟨d.sig, defs d.name⟩ : Callback σ).fn args w1 = defs d.name args w1 from rfl, h3] at h1
    cases h1
  | fault g =>
    rintro (⟨_, cb, hcb, h1⟩ | ⟨_, cb, hcb, h1⟩ | ⟨cb, hcb, args, w1, h1⟩)
    · obtain ⟨d, h2, rfl⟩ := hmem cb hcb
      have := ho d h2
      rw [hlen] at h1
      exact absurd h1 (Nat.not_lt.mpr this)
    · obtain ⟨d, h2, rfl⟩ := hmem cb hcb
      exact absurd (hs d h2) h1
    · obtain ⟨d, h2, rfl⟩ := hmem cb hcb
      obtain ⟨r, w', h3⟩ := hd d h2 args w1
      rw [show (⟨d.sig, defs d.name⟩ : Callback σ).fn args w1 = defs d.name args w1 from rfl, h3] at h1
      cases h1
  | ret st t =>
    obtain ⟨b', w'⟩ := t
    rintro ⟨h1, h0⟩
    have hout : OutSame b b' → b'.out = b.out := by
      intro h2
      unfold Buf.out
      rw [h1.shared, hsh, h2.obuf]
      rfl
    rcases h0 with ⟨rfl, _, h2, _⟩ | ⟨rfl, _, h2, _⟩ | ⟨rfl, _, h2⟩
    · exact ⟨_, _, _, rfl, Or.inl ⟨by simp, h2, hout h2⟩⟩
    · exact ⟨_, _, _, rfl, Or.inl ⟨by simp, h2, hout h2⟩⟩
    · exact ⟨_, _, _, rfl, Or.inr ⟨rfl, h2⟩⟩

/-- What remains to be sent is `A`, the byte being sent included. -/
def Owes (C : Compiled) (A : List Byte) (pc : WPc) (b : Buf σ) : Prop :=
  ∃ pend, Unread b pend ∧
    match pc with
    | .loop => A = pend
    | .done => A = pend
    | .loopHalf n => A = pend ∧ (n = b.half C.loopNextFirst ∨ pend ≠ [])
    | .test => A = pend ∧ pend ≠ []
    | .testHalf n => A = pend ∧ pend ≠ [] ∧ n = b.half C.getNextFirst
    | .pop => A = pend ∧ pend ≠ []
    | .popped n => A = pend ∧ pend ≠ [] ∧ n = b.obufNext
    | .stored n => C.storeFirst = true ∧ ∃ y, A = y :: pend ∧ b.out[n]? = some y
    | .fetched n x => ∃ r, A = pend ∧ pend = x :: r ∧ n = b.obufNext
    | .send x => A = x :: pend

/-- What a main event lets one observe, as a list of sent bytes. -/
def WPc.sends : WPc → List Byte
  | .send x => [x]
  | _ => []

/-- What is observed of a step of the main program. -/
def WPc.obs : WPc → WObs
  | .send x => .sent x
  | _ => .silent

theorem main_run {C : Compiled} {tx : Byte → Eff σ Unit} {pc pc1 : WPc} {st st1 : BState σ} (h : pc.step C tx st = .ret pc1 st1) :
    WEvent.main.run P C tx (pc, st) = .ret pc.obs (pc1, st1) := by
  have h0 : WEvent.main.run P C tx (pc, st) =
      match pc.step C tx st with
      | .ret pc' st' => .ret pc.obs (pc', st')
      | .threw st' => .threw (.done, st')
      | .fault f => .fault f := by
    cases pc <;> rfl
  rw [h0, h]

theorem put_run {C : Compiled} {tx : Byte → Eff σ Unit} {pc : WPc} {st st1 : BState σ} {x : Byte} {s : Status} (h : Buf.put P x st = .ret s st1) :
    (WEvent.put x).run P C tx (pc, st) = .ret (.status s st1.1.left) (pc, st1) := by
  have h0 : (WEvent.put x).run P C tx (pc, st) =
      match Buf.put P x st with
      | .ret s st' => .ret (.status s st'.1.left) (pc, st')
      | .threw st' => .threw (pc, st')
      | .fault f => .fault f := rfl
  rw [h0, h]

/-- Bounds the steps to the end of `write_to` when nothing interrupts it. -/
def WPc.rank : WPc → Nat
  | .loop => 12
  | .loopHalf _ => 11
  | .test => 9
  | .testHalf _ => 8
  | .pop => 7
  | .popped _ => 6
  | .stored _ => 5
  | .fetched _ _ => 5
  | .send _ => 4
  | .done => 0

theorem reachable_next {b : Buf σ} {w : σ} (hr : Reachable P K f defs false (b, w)) {x : Byte} {out : List Byte} (hu : Unread b (x :: out)) :
    Reachable P K f defs false ({ b with obufNext := b.obufNext + 1 }, w) ∧ Unread { b with obufNext := b.obufNext + 1 } out := by
  obtain ⟨b', h1, h2, _, rfl⟩ := get_cons hu w
  obtain ⟨n, w0, h⟩ := hr
  have h3 : (Op.get).run P (b, w) = .ret () ({ b with obufNext := b.obufNext + 1 }, w) := Eff.bind_ret h1
  exact ⟨⟨n, w0, .ret .get h trivial h3⟩, h2⟩

theorem main_step {C : Compiled} {tx : Byte → Eff σ Unit} (htx : ∀ x w, ∃ w', tx x w = .ret () w') {A : List Byte} {pc : WPc} {b : Buf σ} {w : σ}
    (hr : Reachable P K f defs false (b, w)) (hj : Owes C A pc b) :
    ∃ pc' b' w' A', pc.step C tx (b, w) = .ret pc' (b', w') ∧ Reachable P K f defs false (b', w') ∧ A = pc.sends ++ A' ∧ Owes C A' pc' b' ∧
      b' = { b with obufNext := b'.obufNext } ∧ (pc = .done ∨ 10 * A'.length + pc'.rank < 10 * A.length + pc.rank) := by
  obtain ⟨pend, hu, hj⟩ := hj
  cases pc with
  | loop => exact ⟨_, b, w, A, rfl, hr, rfl, ⟨pend, hu, hj, Or.inl rfl⟩, rfl, Or.inr (by simp only [WPc.rank]; omega)⟩
  | done => exact ⟨_, b, w, A, rfl, hr, rfl, ⟨pend, hu, hj⟩, rfl, Or.inl rfl⟩
  | loopHalf n =>
    obtain ⟨h1, h2⟩ := hj
    have hne : b.differs C.loopNextFirst n = true → pend ≠ [] := by
      intro h3
      rcases h2 with rfl | h2
      · exact unread_ne hu ((differs_half _ _).mp h3)
      · exact h2
    by_cases h3 : b.differs C.loopNextFirst n = true
    · refine ⟨.test, b, w, A, ?_, hr, rfl, ⟨pend, hu, h1, hne h3⟩, rfl, Or.inr (by simp only [WPc.rank]; omega)⟩
      show Res.ret (if b.differs C.loopNextFirst _ = true then _ else _) (b, w) = _
      rw [if_pos h3]
    · refine ⟨.done, b, w, A, ?_, hr, rfl, ⟨pend, hu, h1⟩, rfl, Or.inr (by simp only [WPc.rank]; omega)⟩
      show Res.ret (if b.differs C.loopNextFirst _ = true then _ else _) (b, w) = _
      rw [if_neg h3]
  | test => exact ⟨_, b, w, A, rfl, hr, rfl, ⟨pend, hu, hj.1, hj.2, rfl⟩, rfl, Or.inr (by simp only [WPc.rank]; omega)⟩
  | testHalf n =>
    obtain ⟨h1, h2, rfl⟩ := hj
    have h3 := (differs_half C.getNextFirst b).mpr (ne_unread hu h2)
    refine ⟨.pop, b, w, A, ?_, hr, rfl, ⟨pend, hu, h1, h2⟩, rfl, Or.inr (by simp only [WPc.rank]; omega)⟩
    show Res.ret (if b.differs C.getNextFirst _ = true then _ else _) (b, w) = _
    rw [if_pos h3]
  | pop => exact ⟨_, b, w, A, rfl, hr, rfl, ⟨pend, hu, hj.1, hj.2, rfl⟩, rfl, Or.inr (by simp only [WPc.rank]; omega)⟩
  | popped n =>
    obtain ⟨rfl, h2, rfl⟩ := hj
    cases A with
    | nil => exact absurd rfl h2
    | cons y out =>
      have hy := unread_head hu
      obtain ⟨hr', hu'⟩ := reachable_next hr hu
      by_cases hc : C.storeFirst = true
      · refine ⟨.stored b.obufNext, { b with obufNext := b.obufNext + 1 }, w, y :: out, ?_, hr', rfl, ⟨out, hu', hc, y, rfl, hy⟩, rfl, Or.inr (by simp only [WPc.rank]; omega)⟩
        show (if C.storeFirst = true then _ else _ : Eff (BState σ) WPc) (b, w) = _
        rw [if_pos hc]
        rfl
      · refine ⟨.fetched b.obufNext y, b, w, y :: out, ?_, hr, rfl, ⟨y :: out, hu, out, rfl, rfl, rfl⟩, rfl, Or.inr (by simp only [WPc.rank]; omega)⟩
        show (if C.storeFirst = true then _ else _ : Eff (BState σ) WPc) (b, w) = _
        rw [if_neg hc]
        show (Eff.lift (b.outAt b.obufNext) >>= fun x => pure (WPc.fetched b.obufNext x) : Eff (BState σ) WPc) (b, w) = _
        rw [show b.outAt b.obufNext = .ok y by unfold Buf.outAt; rw [hy]]
        rfl
  | stored n =>
    obtain ⟨_, y, rfl, hy⟩ := hj
    refine ⟨.send y, b, w, y :: pend, ?_, hr, rfl, ⟨pend, hu, rfl⟩, rfl, Or.inr (by simp only [WPc.rank]; omega)⟩
    show (Eff.lift (b.outAt n) >>= fun x => pure (WPc.send x) : Eff (BState σ) WPc) (b, w) = _
    rw [show b.outAt n = .ok y by unfold Buf.outAt; rw [hy]]
    rfl
  | fetched n x =>
    obtain ⟨r, rfl, rfl, rfl⟩ := hj
    obtain ⟨hr', hu'⟩ := reachable_next hr hu
    exact ⟨.send x, { b with obufNext := b.obufNext + 1 }, w, x :: r, rfl, hr', rfl, ⟨r, hu', rfl⟩, rfl, Or.inr (by simp only [WPc.rank]; omega)⟩
  | send x =>
    obtain ⟨w', h1⟩ := htx x w
    refine ⟨.loop, b, w', pend, ?_, ?_, hj, ⟨pend, hu, rfl⟩, rfl, Or.inr (by simp only at hj; rw [hj]; simp only [WPc.rank, List.length_cons]; omega)⟩
    · rcases onWorld_cases (tx x) b w with ⟨_, w1, h2, h3⟩ | ⟨w1, h2, _⟩ | ⟨g, h2, _⟩
      · rw [h1] at h2
        cases h2
        exact Eff.bind_ret h3
      · rw [h1] at h2; cases h2
      · rw [h1] at h2; cases h2
    · obtain ⟨n, w0, h⟩ := hr
      exact ⟨n, w0, .world w' h⟩

theorem reachable_after_put {b b' : Buf σ} {w w' : σ} (hr : Reachable P K f defs false (b, w)) {x : Byte} {st : Status}
    (h : Buf.put P x (b, w) = .ret st (b', w')) : Reachable P K f defs false (b', w') := by
  obtain ⟨n, w0, h0⟩ := hr
  exact ⟨n, w0, .ret (.put x) h0 trivial (Eff.bind_ret h)⟩

theorem unread_outSame {b b' : Buf σ} {out : List Byte} (h : Unread b out) (hs : OutSame b b') (hd : b'.out = b.out) : Unread b' out :=
  ⟨by rw [hs.next, hs.bottom]; exact h.bottom, by rw [hs.bottom, hd]; exact h.le, by rw [hs.next, hd]; exact h.bytes⟩

theorem owes_outSame {C : Compiled} {A : List Byte} {pc : WPc} {b b' : Buf σ} (hj : Owes C A pc b) (hs : OutSame b b') (hd : b'.out = b.out) :
    Owes C A pc b' := by
  obtain ⟨pend, hu, hj⟩ := hj
  refine ⟨pend, unread_outSame hu hs hd, ?_⟩
  have hh : ∀ c, b'.half c = b.half c := by intro c; unfold Buf.half; rw [hs.next, hs.bottom]
  cases pc <;> simp only [hh, hs.next, hd] at hj ⊢ <;> exact hj

/-- A request completed when nothing remains to be read, with a response, adds the response to what remains to be sent. -/
theorem owes_resolved {C : Compiled} {A resp : List Byte} {pc : WPc} {b b' : Buf σ} (hj : Owes C A pc b) (hl : b.isLoaded = false)
    (hc : C.storeFirst = false) (hne : resp ≠ []) (hu' : Unread b' resp) : Owes C (A ++ resp) pc b' := by
  obtain ⟨pend, hu, hj⟩ := hj
  have hp := unread_nil hu hl
  subst hp
  refine ⟨resp, hu', ?_⟩
  cases pc with
  | loop => simp only at hj ⊢; rw [hj]; rfl
  | done => simp only at hj ⊢; rw [hj]; rfl
  | loopHalf n => exact ⟨by rw [hj.1]; rfl, Or.inr hne⟩
  | test => exact absurd rfl hj.2
  | testHalf n => exact absurd rfl hj.2.1
  | pop => exact absurd rfl hj.2
  | popped n => exact absurd rfl hj.2.1
  | stored n => rw [hc] at hj; cases hj.1
  | fetched n x => obtain ⟨r, _, h, _⟩ := hj; cases h
  | send x => simp only at hj ⊢; rw [hj]; rfl

theorem happen_cons {C : Compiled} {tx : Byte → Eff σ Unit} {e : WEvent} {es : List WEvent} {st st1 st2 : WPc × BState σ} {o : WObs} {os : List WObs}
    (h1 : e.run P C tx st = .ret o st1) (h2 : happen P C tx es st1 = .ret os st2) : happen P C tx (e :: es) st = .ret (o :: os) st2 := by
  show (e.run P C tx >>= fun o => happen P C tx es >>= fun os => pure (o :: os) : Eff (WPc × BState σ) (List WObs)) st = _
  rw [Eff.bind_ret h1, Eff.bind_ret h2]
  rfl

/-- The run of `write_to`, when requests are completed only as `rule` allows. -/
theorem happen_owes (h : Setting P K f defs) (ho : ResponsesFit K false) (hs : AllDecodeSafe P K)
    (hd : ∀ d ∈ K.decls, ∀ args w, ∃ r w', defs d.name args w = .ret r w') {C : Compiled} {tx : Byte → Eff σ Unit}
    (htx : ∀ x w, ∃ w', tx x w = .ret () w') {rule : Buf σ → List Byte → Prop}
    (hrule : ∀ b resp, rule b resp → b.isLoaded = false ∧ C.storeFirst = false ∧ resp ≠ []) :
    ∀ {es : List WEvent} {A : List Byte} {pc : WPc} {b : Buf σ} {w : σ}, Reachable P K f defs false (b, w) → Owes C A pc b →
      Obeys rule P C tx es (pc, (b, w)) →
      ∃ os pc' b' w' A', happen P C tx es (pc, (b, w)) = .ret os (pc', (b', w')) ∧ Reachable P K f defs false (b', w') ∧
        A ++ responses os = sent os ++ A' ∧ Owes C A' pc' b'
  | [], A, pc, b, w, hr, hj, _ => ⟨[], pc, b, w, A, rfl, hr, by simp [responses, sent], hj⟩
  | .main :: es, A, pc, b, w, hr, hj, hob => by
    obtain ⟨pc1, b1, w1, A1, h1, hr1, hA, hj1, _, _⟩ := main_step htx hr hj
    have hrun := main_run (P := P) h1
    obtain ⟨os, pc2, b2, w2, A2, h2, hr2, hA2, hj2⟩ := happen_owes h ho hs hd htx hrule hr1 hj1 (hob _ _ hrun).2
    refine ⟨_, pc2, b2, w2, A2, happen_cons hrun h2, hr2, ?_, hj2⟩
    rw [hA]
    cases pc <;> simpa [responses, sent, WPc.sends, WPc.obs] using hA2
  | .put x :: es, A, pc, b, w, hr, hj, hob => by
    obtain ⟨st, b1, w1, h1, h0⟩ := put_returns h ho hs hd hr x
    have hr1 := reachable_after_put hr h1
    have hrun := put_run (C := C) (tx := tx) (pc := pc) h1
    have hob1 := hob _ _ hrun
    rcases h0 with ⟨hst, h2, h3⟩ | ⟨rfl, resp, h2⟩
    · obtain ⟨os, pc2, b2, w2, A2, h4, hr2, hA2, hj2⟩ := happen_owes h ho hs hd htx hrule hr1 (owes_outSame hj h2 h3) hob1.2
      refine ⟨_, pc2, b2, w2, A2, happen_cons hrun h4, hr2, ?_, hj2⟩
      cases st <;> first | exact absurd rfl hst | (simpa [responses, sent] using hA2)
    · obtain ⟨h3, h4, h5⟩ := hrule _ _ (hob1.1 _ rfl)
      rw [unread_left h2] at h5
      obtain ⟨os, pc2, b2, w2, A2, h4, hr2, hA2, hj2⟩ := happen_owes h ho hs hd htx hrule hr1 (owes_resolved hj h3 h4 h5 h2) hob1.2
      refine ⟨_, pc2, b2, w2, A2, happen_cons hrun h4, hr2, ?_, hj2⟩
      simp only [responses, sent, unread_left h2]
      rw [← List.append_assoc]
      exact hA2

theorem happen_inv {C : Compiled} {tx : Byte → Eff σ Unit} {e : WEvent} {es : List WEvent} {st st1 st2 : WPc × BState σ} {o : WObs} {os : List WObs}
    (h1 : e.run P C tx st = .ret o st1) (h2 : happen P C tx (e :: es) st = .ret os st2) :
    ∃ os', os = o :: os' ∧ happen P C tx es st1 = .ret os' st2 := by
  have h3 : (e.run P C tx >>= fun o => happen P C tx es >>= fun os => pure (o :: os) : Eff (WPc × BState σ) (List WObs)) st = .ret os st2 := h2
  rw [Eff.bind_ret h1] at h3
  cases h4 : happen P C tx es st1 with
  | fault g => rw [Eff.bind_fault h4] at h3; cases h3
  | threw t => rw [Eff.bind_threw h4] at h3; cases h3
  | ret os' t =>
    rw [Eff.bind_ret h4] at h3
    cases h3
    exact ⟨os', rfl, rfl⟩

/-- What the handler gets when it completes no request. -/
theorem happen_receives (h : Setting P K f defs) (ho : ResponsesFit K false) (hs : AllDecodeSafe P K)
    (hd : ∀ d ∈ K.decls, ∀ args w, ∃ r w', defs d.name args w = .ret r w') {C : Compiled} {tx : Byte → Eff σ Unit}
    (htx : ∀ x w, ∃ w', tx x w = .ret () w') (n : Nat) (w0 : σ) :
    ∀ {es : List WEvent} {A : List Byte} {pc : WPc} {b : Buf σ} {w : σ}, Reachable P K f defs false (b, w) → Owes C A pc b →
      Obeys Nothing P C tx es (pc, (b, w)) → ∀ {os pc' b' w'}, happen P C tx es (pc, (b, w)) = .ret os (pc', (b', w')) →
      puts P (received es) ({ b with obufNext := n }, w0) = .ret (statuses os) ({ b' with obufNext := n }, w0)
  | [], A, pc, b, w, _, _, _, os, pc', b', w', hrun => by cases hrun; rfl
  | .main :: es, A, pc, b, w, hr, hj, hob, os, pc', b', w', hrun => by
    obtain ⟨pc1, b1, w1, A1, h1, hr1, hA, hj1, hb1, _⟩ := main_step htx hr hj
    have h2 := main_run (P := P) h1
    obtain ⟨os1, rfl, h3⟩ := happen_inv h2 hrun
    have h4 := happen_receives h ho hs hd htx n w0 hr1 hj1 (hob _ _ h2).2 h3
    have h5 : ({ b1 with obufNext := n } : Buf σ) = { b with obufNext := n } := by rw [hb1]
    have h6 : statuses (pc.obs :: os1) = statuses os1 := by cases pc <;> rfl
    rw [h6, ← h5]
    exact h4
  | .put x :: es, A, pc, b, w, hr, hj, hob, os, pc', b', w', hrun => by
    obtain ⟨st, b1, w1, h1, h0⟩ := put_returns h ho hs hd hr x
    have hr1 := reachable_after_put hr h1
    have h2 := put_run (C := C) (tx := tx) (pc := pc) h1
    have hob1 := hob _ _ h2
    obtain ⟨os1, rfl, h3⟩ := happen_inv h2 hrun
    rcases h0 with ⟨hst, h5, h6⟩ | ⟨rfl, resp, h5⟩
    · have h4 := happen_receives h ho hs hd htx n w0 hr1 (owes_outSame hj h5 h6) hob1.2 h3
      obtain ⟨hb, _, _, m, hm⟩ := reachable_inv h hr
      show (Buf.put P x >>= fun st => puts P (received es) >>= fun sts => pure (st :: sts) : Eff (BState σ) (List Status)) _ = _
      rw [Eff.bind_ret (put_next_world h.valid hb hm.inp hst h1 n w0), Eff.bind_ret h4]
      rfl
    · exact (hob1.1 _ rfl).elim

/-- Left alone, `write_to` ends. -/
theorem happen_ends {C : Compiled} {tx : Byte → Eff σ Unit} (htx : ∀ x w, ∃ w', tx x w = .ret () w') :
    ∀ (k : Nat) {A : List Byte} {pc : WPc} {b : Buf σ} {w : σ}, 10 * A.length + pc.rank ≤ k → Reachable P K f defs false (b, w) → Owes C A pc b →
      ∃ n os b' w', happen P C tx (List.replicate n .main) (pc, (b, w)) = .ret os (.done, (b', w'))
  | k, A, pc, b, w, hk, hr, hj => by
    obtain ⟨pc1, b1, w1, A1, h1, hr1, hA, hj1, _, rfl | hlt⟩ := main_step htx hr hj
    · exact ⟨0, [], b, w, rfl⟩
    · match k with
      | 0 => omega
      | k + 1 =>
        obtain ⟨n, os, b2, w2, h2⟩ := happen_ends htx k (by omega) hr1 hj1
        exact ⟨n + 1, _, b2, w2, happen_cons (main_run h1) h2⟩

theorem sent_append : ∀ (os os' : List WObs), sent (os ++ os') = sent os ++ sent os'
  | [], _ => rfl
  | .sent x :: os, os' => congrArg (x :: ·) (sent_append os os')
  | .silent :: os, os' => sent_append os os'
  | .status st r :: os, os' => sent_append os os'

theorem happen_append {C : Compiled} {tx : Byte → Eff σ Unit} : ∀ {es es' : List WEvent} {st st1 st2 : WPc × BState σ} {os os' : List WObs},
    happen P C tx es st = .ret os st1 → happen P C tx es' st1 = .ret os' st2 → happen P C tx (es ++ es') st = .ret (os ++ os') st2
  | [], es', st, st1, st2, os, os', h1, h2 => by cases h1; exact h2
  | e :: es, es', st, st1, st2, os, os', h1, h2 => by
    cases h3 : e.run P C tx st with
    | fault g =>
      have : happen P C tx (e :: es) st = .fault g := Eff.bind_fault h3
      rw [this] at h1; cases h1
    | threw t =>
      have : happen P C tx (e :: es) st = .threw t := Eff.bind_threw h3
      rw [this] at h1; cases h1
    | ret o t =>
      obtain ⟨os1, rfl, h4⟩ := happen_inv h3 h1
      exact happen_cons h3 (happen_append h4 h2)

/-- One turn of the loop. -/
theorem happen_turn {C : Compiled} {tx : Byte → Eff σ Unit} {b : Buf σ} {w w' : σ} {x : Byte} {out : List Byte} (hu : Unread b (x :: out))
    (htx : tx x w = .ret () w') :
    ∃ os, sent os = [x] ∧ happen P C tx (List.replicate 8 .main) (.loop, (b, w)) = .ret os (.loop, ({ b with obufNext := b.obufNext + 1 }, w')) := by
  have hne := ne_unread hu (by simp)
  have hy := unread_head hu
  have s2 : (WPc.loopHalf (b.half C.loopNextFirst)).step C tx (b, w) = .ret .test (b, w) := by
    show Res.ret (if b.differs C.loopNextFirst _ = true then _ else _) (b, w) = _
    rw [if_pos ((differs_half _ _).mpr hne)]
  have s4 : (WPc.testHalf (b.half C.getNextFirst)).step C tx (b, w) = .ret .pop (b, w) := by
    show Res.ret (if b.differs C.getNextFirst _ = true then _ else _) (b, w) = _
    rw [if_pos ((differs_half _ _).mpr hne)]
  have s8 : (WPc.send x).step C tx ({ b with obufNext := b.obufNext + 1 }, w) = .ret .loop ({ b with obufNext := b.obufNext + 1 }, w') := by
    rcases onWorld_cases (tx x) { b with obufNext := b.obufNext + 1 } w with ⟨_, w1, h2, h3⟩ | ⟨w1, h2, _⟩ | ⟨g, h2, _⟩
    · rw [htx] at h2
      cases h2
      exact Eff.bind_ret h3
    · rw [htx] at h2; cases h2
    · rw [htx] at h2; cases h2
  have hout : b.outAt b.obufNext = .ok x := by unfold Buf.outAt; rw [hy]
  refine ⟨[.silent, .silent, .silent, .silent, .silent, .silent, .silent, .sent x], rfl, ?_⟩
  by_cases hc : C.storeFirst = true
  · have s6 : (WPc.popped b.obufNext).step C tx (b, w) = .ret (.stored b.obufNext) ({ b with obufNext := b.obufNext + 1 }, w) := by
      show (if C.storeFirst = true then _ else _ : Eff (BState σ) WPc) (b, w) = _
      rw [if_pos hc]
      rfl
    have s7 : (WPc.stored b.obufNext).step C tx ({ b with obufNext := b.obufNext + 1 }, w) = .ret (.send x) ({ b with obufNext := b.obufNext + 1 }, w) := by
      show (Eff.lift (b.outAt b.obufNext) >>= fun x => pure (WPc.send x) : Eff (BState σ) WPc) ({ b with obufNext := b.obufNext + 1 }, w) = _
      rw [hout]
      rfl
    exact happen_cons (main_run (pc := .loop) rfl) (happen_cons (main_run s2) (happen_cons (main_run (pc := .test) rfl) (happen_cons (main_run s4)
      (happen_cons (main_run (pc := .pop) rfl) (happen_cons (main_run s6) (happen_cons (main_run s7) (happen_cons (main_run s8) rfl)))))))
  · have s6 : (WPc.popped b.obufNext).step C tx (b, w) = .ret (.fetched b.obufNext x) (b, w) := by
      show (if C.storeFirst = true then _ else _ : Eff (BState σ) WPc) (b, w) = _
      rw [if_neg hc]
      show (Eff.lift (b.outAt b.obufNext) >>= fun x => pure (WPc.fetched b.obufNext x) : Eff (BState σ) WPc) (b, w) = _
      rw [hout]
      rfl
    exact happen_cons (main_run (pc := .loop) rfl) (happen_cons (main_run s2) (happen_cons (main_run (pc := .test) rfl) (happen_cons (main_run s4)
      (happen_cons (main_run (pc := .pop) rfl) (happen_cons (main_run s6) (happen_cons (main_run (pc := .fetched _ _) rfl) (happen_cons (main_run s8) rfl)))))))

theorem obeys_cons {rule : Buf σ → List Byte → Prop} {C : Compiled} {tx : Byte → Eff σ Unit} {e : WEvent} {es : List WEvent} {st st1 : WPc × BState σ}
    {o : WObs} (h1 : e.run P C tx st = .ret o st1) (h2 : ∀ resp, o = .status .resolved resp → rule st.2.1 resp) (h3 : Obeys rule P C tx es st1) :
    Obeys rule P C tx (e :: es) st := by
  intro o' st' h
  rw [h1] at h
  cases h
  exact ⟨h2, h3⟩

theorem obeys_main {rule : Buf σ → List Byte → Prop} {C : Compiled} {tx : Byte → Eff σ Unit} {es : List WEvent} {pc pc1 : WPc} {st st1 : BState σ}
    (h1 : pc.step C tx st = .ret pc1 st1) (h3 : Obeys rule P C tx es (pc1, st1)) : Obeys rule P C tx (.main :: es) (pc, st) :=
  obeys_cons (main_run h1) (fun _ h => by cases pc <;> cases h) h3

theorem replicate_add' {α : Type} (x : α) : ∀ m n : Nat, List.replicate (m + n) x = List.replicate m x ++ List.replicate n x
  | 0, n => by simp
  | m + 1, n => by
    rw [Nat.add_right_comm, List.replicate_succ, List.replicate_succ, replicate_add' x m n]
    rfl

theorem responses_nothing {C : Compiled} {tx : Byte → Eff σ Unit} : ∀ {es : List WEvent} {st st' : WPc × BState σ} {os : List WObs},
    Obeys Nothing P C tx es st → happen P C tx es st = .ret os st' → responses os = []
  | [], st, st', os, _, h => by cases h; rfl
  | e :: es, st, st', os, hob, h => by
    cases h3 : e.run P C tx st with
    | fault g =>
      have : happen P C tx (e :: es) st = .fault g := Eff.bind_fault h3
      rw [this] at h; cases h
    | threw t =>
      have : happen P C tx (e :: es) st = .threw t := Eff.bind_threw h3
      rw [this] at h; cases h
    | ret o t =>
      obtain ⟨os1, rfl, h4⟩ := happen_inv h3 h
      obtain ⟨h5, h6⟩ := hob _ _ h3
      have h7 := responses_nothing h6 h4
      cases o with
      | silent => exact h7
      | sent x => exact h7
      | status s r =>
        cases s with
        | resolved => exact (h5 r rfl).elim
        | loading => exact h7
        | dropped => exact h7

end Upd
