import Verif.Lemmas.Cases
import Verif.Lemmas.Reach
import Verif.Spec.Reentrant

/-! Helper lemmas about callbacks which use the buffered dispatcher that runs them (C87). -/

namespace Upd
open Spec

variable {σ : Type}

/-- The dispatcher is running a callback, and `room` bytes of its input buffer are free. -/
structure Busy (b : Buf σ) (room : Nat) : Prop where
  loaded : b.indexLoaded = true
  next : b.obufNext = 0
  bottom : b.obufBottom = 0
  fits : b.ibufNext + room = b.ibuf.length
  count : (b.loadCount = 0 ∧ room ≤ b.sizeMax) ∨ room < b.loadCount

/-- `b'` is `b` but for the counters of the input side and the bytes of the input buffer from the `n`-th on. -/
structure Trail (n : Nat) (b b' : Buf σ) : Prop where
  same : Same b b'
  obuf : b'.obuf = b.obuf
  next : b'.obufNext = b.obufNext
  bottom : b'.obufBottom = b.obufBottom
  ibuf : ∀ i : Nat, i < n → b'.ibuf[i]? = b.ibuf[i]?

theorem Trail.refl (n : Nat) (b : Buf σ) : Trail n b b := ⟨Same.refl b, rfl, rfl, rfl, fun _ _ => rfl⟩

theorem Trail.trans {n : Nat} {a b c : Buf σ} (h : Trail n a b) (h' : Trail n b c) : Trail n a c :=
  ⟨h.same.trans h'.same, h'.obuf.trans h.obuf, h'.next.trans h.next, h'.bottom.trans h.bottom,
    fun i hi => (h'.ibuf i hi).trans (h.ibuf i hi)⟩

/-- `put` while a callback is running, when there is room. -/
theorem putWith_busy {P : Platform} (call : Eff (BState σ) Unit) {b : Buf σ} {room n : Nat} (h : Busy b (room + 1)) (hn : n ≤ b.ibufNext) (x : Byte)
    (w : σ) : ∃ b', Buf.putWith P call x (b, w) = .ret .loading (b', w) ∧ Busy b' room ∧ Trail n b b' ∧ n ≤ b'.ibufNext := by
  have hroom := h.fits
  have hp : b.pushIn x = .ok { b with ibuf := b.ibuf.set b.ibufNext x, ibufNext := b.ibufNext + 1 } := by
    unfold Buf.pushIn
    rw [if_pos (by omega)]
  obtain ⟨c, hc⟩ : ∃ c, c = decSize b.sizeMax b.loadCount := ⟨_, rfl⟩
  have hpos : room < c := by
    rw [hc]
    unfold decSize
    rcases h.count with ⟨h1, h2⟩ | h1
    · rw [if_pos h1]; omega
    · rw [if_neg (by omega)]; omega
  refine ⟨{ b with ibuf := b.ibuf.set b.ibufNext x, ibufNext := b.ibufNext + 1, loadCount := c }, ?_, ?_, ?_, ?_⟩
  · unfold Buf.putWith
    show (Eff.lift (b.pushIn x) >>= _) (b, w) = _
    rw [hp, Eff.lift_ok, pure_bind]
    simp only [← hc]
    show (if c > 0 then pure .loading else _ : Eff (BState σ) Status) _ = _
    rw [if_pos (by omega)]
    rfl
  · exact ⟨h.loaded, h.next, h.bottom, by simp only [List.length_set]; omega, Or.inr hpos⟩
  · refine ⟨⟨rfl, rfl, by simp, rfl, rfl⟩, rfl, rfl, rfl, fun i hi => ?_⟩
    show (b.ibuf.set b.ibufNext x)[i]? = _
    rw [List.getElem?_set_ne (by omega)]
  · show n ≤ b.ibufNext + 1
    omega

theorem putWith_full {P : Platform} (call : Eff (BState σ) Unit) {b : Buf σ} (h : Busy b 0) (x : Byte) (w : σ) :
    Buf.putWith P call x (b, w) = .fault .ibufOverrun := by
  have hroom := h.fits
  unfold Buf.putWith
  show (Eff.lift (b.pushIn x) >>= _) (b, w) = _
  unfold Buf.pushIn
  rw [if_neg (by omega)]
  rfl

theorem busy_isLoaded {b : Buf σ} {room : Nat} (h : Busy b room) : b.isLoaded = false := by
  unfold Buf.isLoaded
  rw [h.next, h.bottom]
  rfl

theorem writeTo_busy {ω : Type} {b : Buf σ} {room : Nat} (h : Busy b room) (dest : Byte → Eff ω Unit) (w : ω) :
    Buf.writeTo dest (b, w) = .ret () (b, w) := by
  unfold Buf.writeTo
  show Buf.writeLoop dest (b.out.length + 2) (b, w) = _
  unfold Buf.writeLoop
  show (if b.isLoaded = true then _ else _ : Eff (Buf σ × ω) Unit) (b, w) = _
  rw [if_neg (by rw [busy_isLoaded h]; simp)]
  rfl

/-- The outcome of a callback, and that of its specification. -/
def Lands (n : Nat) (b : Buf σ) {α : Type} : Res (BState σ) α → Res σ α → Prop
  | .ret r (b', w), .ret r' w' => r = r' ∧ w = w' ∧ Trail n b b'
  | .threw (_, w), .threw w' => w = w'
  | .fault f, .fault f' => f = f'
  | _, _ => False

theorem Lands.mono {n : Nat} {a b : Buf σ} {α : Type} {x : Res (BState σ) α} {y : Res σ α} (h : Trail n a b) (hl : Lands n b x y) : Lands n a x y := by
  cases x <;> cases y <;> simp only [Lands] at hl ⊢
  · exact ⟨hl.1, hl.2.1, h.trans hl.2.2⟩
  · exact hl
  · exact hl

theorem onWorld_at {α : Type} (x : Eff σ α) (b : Buf σ) (w : σ) :
    (onWorld x : Eff (BState σ) _) (b, w) = match x w with
      | .ret a w' => .ret a (b, w')
      | .threw w' => .threw (b, w')
      | .fault f => .fault f := rfl

theorem readLoop2_busy {P : Platform} (call : Eff (BState σ) Unit) (src : Eff σ Byte) {n : Nat} : ∀ {room fuel : Nat} {b : Buf σ} {w : σ} {s : Status},
    Busy b room → n ≤ b.ibufNext → room < fuel →
      Lands n b (Buf.readLoop2With (Buf.putWith P call) src fuel s (b, w)) (swallow src room w)
  | room, 0, _, _, _, _, _, hf => by omega
  | room, fuel + 1, b, w, s, h, hn, hf => by
    unfold Buf.readLoop2With
    show Lands n b ((if b.indexLoaded = true then _ else _ : Eff (BState σ) Status) (b, w)) _
    rw [if_pos h.loaded]
    cases hs : src w with
    | fault f =>
      have h1 : (onWorld src : Eff (BState σ) _) (b, w) = .fault f := by rw [onWorld_at, hs]
      rw [Eff.bind_fault h1]
      cases room <;> (unfold swallow; rw [Eff.bind_fault hs]; exact rfl)
    | threw w' =>
      have h1 : (onWorld src : Eff (BState σ) _) (b, w) = .threw (b, w') := by rw [onWorld_at, hs]
      rw [Eff.bind_threw h1]
      cases room <;> (unfold swallow; rw [Eff.bind_threw hs]; exact rfl)
    | ret x w' =>
      have h1 : (onWorld src : Eff (BState σ) _) (b, w) = .ret x (b, w') := by rw [onWorld_at, hs]
      rw [Eff.bind_ret h1]
      cases room with
      | zero =>
        rw [Eff.bind_fault (putWith_full call h x w')]
        unfold swallow
        rw [Eff.bind_ret hs]
        exact rfl
      | succ room =>
        obtain ⟨b', h2, h3, h4, h5⟩ := putWith_busy call h hn x w'
        rw [Eff.bind_ret (h2)]
        unfold swallow
        rw [Eff.bind_ret hs]
        exact (readLoop2_busy call src h3 h5 (by omega)).mono h4

theorem readFrom_busy {P : Platform} (call : Eff (BState σ) Unit) (src : Eff σ Byte) {n room : Nat} {b : Buf σ} {w : σ} (h : Busy b room)
    (hn : n ≤ b.ibufNext) : Lands n b (Buf.readFromWith (Buf.putWith P call) src (b, w)) (swallow src room w) := by
  have hroom := h.fits
  have h1 : Buf.readLoop1With (Buf.putWith P call) src (b.ibuf.length + 2) .loading (b, w) = .ret .loading (b, w) := by
    unfold Buf.readLoop1With
    show (if (!b.indexLoaded && decide (Status.loading = .loading)) = true then _ else _ : Eff (BState σ) Status) (b, w) = _
    rw [if_neg (by rw [h.loaded]; simp)]
    rfl
  unfold Buf.readFromWith
  show Lands n b ((Buf.readLoop1With (Buf.putWith P call) src (b.ibuf.length + 2) .loading >>= _) (b, w)) _
  rw [Eff.bind_ret h1]
  exact readLoop2_busy call src h hn (show room < b.ibuf.length + 2 by omega)

theorem swallow_ne_ret {α : Type} (src : Eff σ Byte) : ∀ (room : Nat) (w w' : σ) (a : α), swallow src room w ≠ .ret a w'
  | 0, w, w', a, h => by
    unfold swallow at h
    cases hs : src w with
    | fault f => rw [Eff.bind_fault hs] at h; cases h
    | threw w1 => rw [Eff.bind_threw hs] at h; cases h
    | ret x w1 => rw [Eff.bind_ret hs] at h; cases h
  | room + 1, w, w', a, h => by
    unfold swallow at h
    cases hs : src w with
    | fault f => rw [Eff.bind_fault hs] at h; cases h
    | threw w1 => rw [Eff.bind_threw hs] at h; cases h
    | ret x w1 => rw [Eff.bind_ret hs] at h; exact swallow_ne_ret src room _ _ _ h

theorem swallow_any {α β : Type} (src : Eff σ Byte) : ∀ (room : Nat) (w : σ),
    (∃ f, swallow (α := α) src room w = .fault f ∧ swallow (α := β) src room w = .fault f) ∨
    ∃ w', swallow (α := α) src room w = .threw w' ∧ swallow (α := β) src room w = .threw w'
  | 0, w => by
    unfold swallow
    cases hs : src w with
    | fault f => rw [Eff.bind_fault hs, Eff.bind_fault hs]; exact Or.inl ⟨f, rfl, rfl⟩
    | threw w1 => rw [Eff.bind_threw hs, Eff.bind_threw hs]; exact Or.inr ⟨w1, rfl, rfl⟩
    | ret x w1 => rw [Eff.bind_ret hs, Eff.bind_ret hs]; exact Or.inl ⟨_, rfl, rfl⟩
  | room + 1, w => by
    unfold swallow
    cases hs : src w with
    | fault f => rw [Eff.bind_fault hs, Eff.bind_fault hs]; exact Or.inl ⟨f, rfl, rfl⟩
    | threw w1 => rw [Eff.bind_threw hs, Eff.bind_threw hs]; exact Or.inr ⟨w1, rfl, rfl⟩
    | ret x w1 => rw [Eff.bind_ret hs, Eff.bind_ret hs]; exact swallow_any src room w1

/-- What a callback does with the dispatcher which runs it. -/
theorem run_flat {P : Platform} (call : Eff (BState σ) Unit) {n : Nat} : ∀ (p : Prog σ) {room : Nat} {b : Buf σ} {w : σ}, Busy b room → n ≤ b.ibufNext →
    Lands n b (p.run P (Buf.putWith P call) (b, w)) (flat P room p w)
  | .done r, room, b, w, h, hn => by
    unfold Prog.run flat
    exact ⟨rfl, rfl, Trail.refl n b⟩
  | .look k, room, b, w, h, hn => by
    unfold Prog.run flat
    exact run_flat call (k w) h hn
  | .step x k, room, b, w, h, hn => by
    unfold Prog.run flat
    cases hs : x w with
    | fault f =>
      have h1 : (onWorld x : Eff (BState σ) _) (b, w) = .fault f := by rw [onWorld_at, hs]
      rw [Eff.bind_fault h1, Eff.bind_fault hs]; exact rfl
    | threw w' =>
      have h1 : (onWorld x : Eff (BState σ) _) (b, w) = .threw (b, w') := by rw [onWorld_at, hs]
      rw [Eff.bind_threw h1, Eff.bind_threw hs]; exact rfl
    | ret _ w' =>
      have h1 : (onWorld x : Eff (BState σ) _) (b, w) = .ret () (b, w') := by rw [onWorld_at, hs]
      rw [Eff.bind_ret h1, Eff.bind_ret hs]; exact run_flat call k h hn
  | .put x k, 0, b, w, h, hn => by
    unfold Prog.run flat
    rw [Eff.bind_fault (putWith_full call h x w)]
    exact rfl
  | .put x k, room + 1, b, w, h, hn => by
    unfold Prog.run flat
    obtain ⟨b', h2, h3, h4, h5⟩ := putWith_busy (P := P) call h hn x w
    rw [Eff.bind_ret h2]
    exact (run_flat call (k .loading) h3 h5).mono h4
  | .get k, room, b, w, h, hn => by
    unfold Prog.run flat
    have h1 : Buf.get (b, w) = .ret 0#8 (b, w) := by
      unfold Buf.get
      rw [if_neg (by show ¬ b.isLoaded = true; rw [busy_isLoaded h]; simp)]
    rw [Eff.bind_ret h1]
    exact run_flat call (k 0#8) h hn
  | .isLoaded k, room, b, w, h, hn => by
    unfold Prog.run flat
    show Lands n b ((k b.isLoaded).run P (Buf.putWith P call) (b, w)) _
    rw [busy_isLoaded h]
    exact run_flat call (k false) h hn
  | .readFrom src k, room, b, w, h, hn => by
    unfold Prog.run flat
    have h1 := readFrom_busy (P := P) call src (w := w) h hn
    rcases swallow_any (α := Status) (β := Option Val) src room w with ⟨f, h2, h3⟩ | ⟨w', h2, h3⟩
    · rw [h2] at h1
      rw [h3]
      cases h4 : Buf.readFromWith (Buf.putWith P call) src (b, w) with
      | ret a st => rw [h4] at h1; exact h1.elim
      | threw st => rw [h4] at h1; exact h1.elim
      | fault f' => rw [h4] at h1; rw [Eff.bind_fault h4]; exact h1
    · rw [h2] at h1
      rw [h3]
      cases h4 : Buf.readFromWith (Buf.putWith P call) src (b, w) with
      | ret a st => rw [h4] at h1; exact h1.elim
      | threw st => rw [h4] at h1; rw [Eff.bind_threw h4]; exact h1
      | fault f' => rw [h4] at h1; exact h1.elim
  | .writeTo dest k, room, b, w, h, hn => by
    unfold Prog.run flat
    rw [Eff.bind_ret (writeTo_busy h dest w)]
    exact run_flat call k h hn
  | .reply key m output k, room, b, w, h, hn => by
    unfold Prog.run flat
    have h1 : Buf.reply P key m output (b, w) =
        match key.writeTo P [.arr ((P.junkBytes m).map fun x => .int x.toNat)] output w with
        | .ret _ w => .ret true (b, w)
        | .threw w => .threw (b, w)
        | .fault f => .fault f := by
      unfold Buf.reply
      simp only [h.next, h.bottom, Nat.zero_le, decide_true, Bool.and_self, Bool.not_true, Bool.false_eq_true, if_false]
      rw [writeTo_busy h bufIt]
      rfl
    cases hs : key.writeTo P [.arr ((P.junkBytes m).map fun x => .int x.toNat)] output w with
    | fault f => rw [hs] at h1; rw [Eff.bind_fault h1, Eff.bind_fault hs]; exact rfl
    | threw w' => rw [hs] at h1; rw [Eff.bind_threw h1, Eff.bind_threw hs]; exact rfl
    | ret _ w' => rw [hs] at h1; rw [Eff.bind_ret h1, Eff.bind_ret hs]; exact run_flat call (k true) h hn

section
variable {P : Platform} {K : Keyring} {f : Features} {defs : Nat → List Val → Prog σ} {room : Nat → Nat}

/-- `call()` on a buffer which starts with a whole request, when decoding succeeds. -/
theorem callR_buf (h : Setting P K f fun name args => flat P (room name) (defs name args)) (depth : Nat) {b : Buf σ} {i : Nat}
    (hi : i < K.decls.length) (hidx : wireValue K.e (slice b.ibuf 0 K.idxBytes) = i)
    (hroom : K.idxBytes + wireSizes K.decls[i].sig.params + room K.decls[i].name = b.ibuf.length)
    (hn : b.ibufNext = K.idxBytes + wireSizes K.decls[i].sig.params) (hl : b.indexLoaded = true) (hc : b.loadCount = 0)
    (hsz : b.ibuf.length ≤ b.sizeMax) {args : List Val}
    (hdec : readAll P K.e K.s K.decls[i].sig.params (slice b.ibuf K.idxBytes (wireSizes K.decls[i].sig.params)) 0 = .ok args)
    (hfit : Val.FitsAll (Safe P K.s) K.decls[i].sig.params args) (w : σ) :
    match flat P (room K.decls[i].name) (defs K.decls[i].name args) w with
    | .ret r w' =>
      ((response K.e K.s K.decls[i].sig.ret r).length ≤ b.out.length ∧ ∃ b1, Trail b.ibufNext { b with obufBottom := 0, obufNext := 0 } b1 ∧
        Buf.callR P K f defs (depth + 1) (b, w) = .ret () (b1.finish K.idxBytes (response K.e K.s K.decls[i].sig.ret r), w')) ∨
      (b.out.length < (response K.e K.s K.decls[i].sig.ret r).length ∧ Buf.callR P K f defs (depth + 1) (b, w) = .fault .obufOverrun)
    | .threw w' => ∃ b1, Buf.callR P K f defs (depth + 1) (b, w) = .threw (b1, w')
    | .fault e => Buf.callR P K f defs (depth + 1) (b, w) = .fault e := by
  have hg := h.ring.2 _ (List.getElem_mem hi)
  obtain ⟨b0, hb0⟩ : ∃ b0 : Buf σ, b0 = { b with obufBottom := 0, obufNext := 0 } := ⟨_, rfl⟩
  have hib : b0.ibuf = b.ibuf := by rw [hb0]
  have ho : b0.out = b.out := by rw [hb0]; rfl
  have hbot : b0.obufBottom = 0 := by rw [hb0]
  have hnx : b0.obufNext = 0 := by rw [hb0]
  have hin : b0.ibufNext = b.ibufNext := by rw [hb0]
  have hbusy : Busy b0 (room K.decls[i].name) :=
    ⟨by rw [hb0]; exact hl, hnx, hbot, by rw [hin, hib]; omega, Or.inl ⟨by rw [hb0]; exact hc, by rw [hb0]; show _ ≤ b.sizeMax; omega⟩⟩
  rw [← hb0]
  have h1 : (modifyBuf fun b => { b with obufBottom := 0, obufNext := 0 }) (b, w) = .ret () (b0, w) := by
    rw [hb0]; rfl
  obtain ⟨D, hD⟩ : ∃ D : Dispatcher (BState σ),
      D = Dispatcher.make K f fun name args => (defs name args).run P (Buf.putWith P (Buf.callR P K f defs depth)) := ⟨_, rfl⟩
  have hcall : Buf.callR P K f defs (depth + 1) (b, w) = (withPtr (do
      let index ← D.getIndex P ibufSrc
      let a ← Eff.lift (D.at index)
      a.invoke P stateLens ibufSrc obufDest : Eff (Nat × BState σ) Unit) >>= fun _ =>
        modifyBuf fun b => { b with indexLoaded := false, loadCount := K.idxBytes, ibufNext := 0 }) (b0, w) := by
    unfold Buf.callR
    rw [Eff.bind_ret h1, hD]
    rfl
  have hblock : (do
      let index ← D.getIndex P ibufSrc
      let a ← Eff.lift (D.at index)
      a.invoke P stateLens ibufSrc obufDest : Eff (Nat × BState σ) Unit) (0, (b0, w)) =
      ((Eff.zoom stateLens ((defs K.decls[i].name args).run P (Buf.putWith P (Buf.callR P K f defs depth)))
        >>= fun r => respond P K.e K.s K.decls[i].sig.ret r obufDest) : Eff (Nat × BState σ) Unit)
        (K.idxBytes + wireSizes K.decls[i].sig.params, (b0, w)) := by
    have hgi : D.getIndex P ibufSrc (0, (b0, w)) = .ret i (K.idxBytes, (b0, w)) := by
      have := getIndex_buf h.valid (setting_serves h) (b := b0) (w := w) (by rw [hib]; show K.idxBytes ≤ _; omega)
      rw [hib] at this
      rw [hD]
      rw [← hidx]
      exact this
    have hacts := make_acts (f := f) (defs := fun name args => (defs name args).run P (Buf.putWith P (Buf.callR P K f defs depth))) hi
    rw [← hD] at hacts
    rw [Eff.bind_ret hgi, at_eq hacts, Eff.lift_ok, pure_bind, (makeAction_holds _ _ _ _).invoke, call_eq h.valid h.sup _ hg.1 hg.2.1]
    have hy := ibufSrc_yields (b := b0) (w := w) (n := wireSizes K.decls[i].sig.params) (i := K.idxBytes) (by rw [hib]; omega)
    have hgn := getN_yields hy
    rw [slice_length (by rw [hib]; omega), hib] at hgn
    rw [Eff.bind_ret hgn, hdec, Eff.lift_ok, pure_bind]
  have hland := run_flat (P := P) (Buf.callR P K f defs depth) (n := b.ibufNext) (defs K.decls[i].name args) (w := w) hbusy (by rw [hin]; omega)
  rw [hcall]
  cases hrun : (defs K.decls[i].name args).run P (Buf.putWith P (Buf.callR P K f defs depth)) (b0, w) with
  | fault e =>
    rw [hrun] at hland
    have hz : Eff.zoom stateLens ((defs K.decls[i].name args).run P (Buf.putWith P (Buf.callR P K f defs depth)))
        (K.idxBytes + wireSizes K.decls[i].sig.params, (b0, w)) = .fault e := by
      unfold Eff.zoom; simp only [stateLens]; rw [hrun]
    rw [Eff.bind_fault hz] at hblock
    rw [Eff.bind_fault (withPtr_fault hblock)]
    cases hfl : flat P (room K.decls[i].name) (defs K.decls[i].name args) w with
    | ret r w' => rw [hfl] at hland; exact hland.elim
    | threw w' => rw [hfl] at hland; exact hland.elim
    | fault e' => rw [hfl] at hland; simp only [Lands] at hland; simp only; rw [hland]
  | threw st =>
    obtain ⟨b1, w1⟩ := st
    rw [hrun] at hland
    rw [Eff.bind_threw (zoom_threw (L := stateLens) hrun)] at hblock
    rw [Eff.bind_threw (withPtr_threw (i := K.idxBytes + wireSizes K.decls[i].sig.params) (t' := (b1, w1)) hblock)]
    cases hfl : flat P (room K.decls[i].name) (defs K.decls[i].name args) w with
    | ret r w' => rw [hfl] at hland; exact hland.elim
    | fault w' => rw [hfl] at hland; exact hland.elim
    | threw w' => rw [hfl] at hland; simp only [Lands] at hland; exact ⟨b1, by rw [hland]⟩
  | ret r st =>
    obtain ⟨b1, w1⟩ := st
    rw [hrun] at hland
    cases hfl : flat P (room K.decls[i].name) (defs K.decls[i].name args) w with
    | threw w' => rw [hfl] at hland; exact hland.elim
    | fault w' => rw [hfl] at hland; exact hland.elim
    | ret r' w' =>
      rw [hfl] at hland
      obtain ⟨rfl, rfl, ht⟩ := hland
      have hr : RetOk P K.s K.decls[i].sig.ret r := h.typed _ (List.getElem_mem hi) args w r w1 hfit hfl
      rw [Eff.bind_ret (zoom_ret (L := stateLens) hrun), respond_eq h.valid h.sup hg.2.2 hr,
        show stateLens.put (b1, w1) (K.idxBytes + wireSizes K.decls[i].sig.params, (b0, w)) =
          (K.idxBytes + wireSizes K.decls[i].sig.params, (b1, w1)) from rfl] at hblock
      have hol : b1.out.length = b.out.length := by rw [ht.same.outLen, ho]
      have hb1 : b1.obufBottom = 0 := by rw [ht.bottom, hbot]
      by_cases hfits : (response K.e K.s K.decls[i].sig.ret r).length ≤ b.out.length
      · refine Or.inl ⟨hfits, b1, ht, ?_⟩
        have hp := putAll_obuf (w := w1) (i := K.idxBytes + wireSizes K.decls[i].sig.params) (b := b1)
          (bs := response K.e K.s K.decls[i].sig.ret r) (by rw [hol, hb1]; omega)
        rw [hp] at hblock
        rw [Eff.bind_ret (withPtr_ret hblock)]
        have hb1' : ({ b1 with obufBottom := 0, obufNext := 0 } : Buf σ) = b1 := by
          have := ht.next; rw [hnx] at this
          cases b1; simp_all
        show Res.ret () _ = _
        unfold Buf.finish
        rw [hb1']
      · refine Or.inr ⟨by omega, ?_⟩
        have hp := putAll_obuf_fault (w := w1) (i := K.idxBytes + wireSizes K.decls[i].sig.params) (b := b1)
          (bs := response K.e K.s K.decls[i].sig.ret r) (by rw [hb1]; omega) (by rw [hol, hb1]; omega)
        rw [hp] at hblock
        rw [Eff.bind_fault (withPtr_fault hblock)]

/-- `call()` on a buffer which starts with a whole request, when decoding faults. -/
theorem callR_fault (h : Setting P K f fun name args => flat P (room name) (defs name args)) (depth : Nat) {b : Buf σ} {i : Nat}
    (hi : i < K.decls.length) (hidx : wireValue K.e (slice b.ibuf 0 K.idxBytes) = i)
    (hroom : K.idxBytes + wireSizes K.decls[i].sig.params ≤ b.ibuf.length) {e : Fault}
    (hdec : readAll P K.e K.s K.decls[i].sig.params (slice b.ibuf K.idxBytes (wireSizes K.decls[i].sig.params)) 0 = .error e) (w : σ) :
    Buf.callR P K f defs (depth + 1) (b, w) = .fault e := by
  have hg := h.ring.2 _ (List.getElem_mem hi)
  obtain ⟨b0, hb0⟩ : ∃ b0 : Buf σ, b0 = { b with obufBottom := 0, obufNext := 0 } := ⟨_, rfl⟩
  have hib : b0.ibuf = b.ibuf := by rw [hb0]
  have h1 : (modifyBuf fun b => { b with obufBottom := 0, obufNext := 0 }) (b, w) = .ret () (b0, w) := by
    rw [hb0]; rfl
  obtain ⟨D, hD⟩ : ∃ D : Dispatcher (BState σ),
      D = Dispatcher.make K f fun name args => (defs name args).run P (Buf.putWith P (Buf.callR P K f defs depth)) := ⟨_, rfl⟩
  have hcall : Buf.callR P K f defs (depth + 1) (b, w) = (withPtr (do
      let index ← D.getIndex P ibufSrc
      let a ← Eff.lift (D.at index)
      a.invoke P stateLens ibufSrc obufDest : Eff (Nat × BState σ) Unit) >>= fun _ =>
        modifyBuf fun b => { b with indexLoaded := false, loadCount := K.idxBytes, ibufNext := 0 }) (b0, w) := by
    unfold Buf.callR
    rw [Eff.bind_ret h1, hD]
    rfl
  have hblock : (do
      let index ← D.getIndex P ibufSrc
      let a ← Eff.lift (D.at index)
      a.invoke P stateLens ibufSrc obufDest : Eff (Nat × BState σ) Unit) (0, (b0, w)) = .fault e := by
    have hgi : D.getIndex P ibufSrc (0, (b0, w)) = .ret i (K.idxBytes, (b0, w)) := by
      have := getIndex_buf h.valid (setting_serves h) (b := b0) (w := w) (by rw [hib]; show K.idxBytes ≤ _; omega)
      rw [hib] at this
      rw [hD]
      rw [← hidx]
      exact this
    have hacts := make_acts (f := f) (defs := fun name args => (defs name args).run P (Buf.putWith P (Buf.callR P K f defs depth))) hi
    rw [← hD] at hacts
    rw [Eff.bind_ret hgi, at_eq hacts, Eff.lift_ok, pure_bind, (makeAction_holds _ _ _ _).invoke, call_eq h.valid h.sup _ hg.1 hg.2.1]
    have hy := ibufSrc_yields (b := b0) (w := w) (n := wireSizes K.decls[i].sig.params) (i := K.idxBytes) (by rw [hib]; omega)
    have hgn := getN_yields hy
    rw [slice_length (by rw [hib]; omega), hib] at hgn
    rw [Eff.bind_ret hgn, hdec]
    rfl
  rw [hcall, Eff.bind_fault (withPtr_fault hblock)]

/-- `b'`, whose callbacks use it, is in the same state as `b`, whose callbacks behave as specified. -/
structure RSim (P : Platform) (K : Keyring) (fl : Nat → List Val → Eff σ (Option Val)) (b b' : Buf σ) (pending : List Byte) : Prop where
  inp : RelIn (protoOf K fl) b pending
  inp' : RelIn (protoOf K fun _ _ => Eff.lift (.error .illTyped)) b' pending
  ok : BufOk P (protoOf K fl) b
  ok' : BufOk P (protoOf K fun _ _ => Eff.lift (.error .illTyped)) b'
  shared : b'.shared = b.shared
  ilen : b.ibuf.length = neededInput K
  ilen' : b'.ibuf.length = neededInput K
  olen : b'.obuf.length = b.obuf.length
  size : neededInput K ≤ b'.sizeMax
  next : b'.obufNext = b.obufNext
  bottom : b'.obufBottom = b.obufBottom
  le : b.obufNext ≤ b.obufBottom
  ble : b.obufBottom ≤ b.out.length
  bytes : ∀ i : Nat, i < b.obufBottom → b'.out[i]? = b.out[i]?

theorem RSim.outLen {fl : Nat → List Val → Eff σ (Option Val)} {b b' : Buf σ} {pending : List Byte} (h : RSim P K fl b b' pending) :
    b'.out.length = b.out.length := by
  unfold Buf.out
  rw [h.shared]
  split
  · rw [h.ilen, h.ilen']
  · exact h.olen

/-- Both store a byte of the input. -/
theorem RSim.stored {fl : Nat → List Val → Eff σ (Option Val)} {b b' b1 b1' : Buf σ} {pending p1 : List Byte} (h : RSim P K fl b b' pending) {x : Byte}
    (hr : RelIn (protoOf K fl) b1 p1) (hs : Same b b1) (ho : OutSame b b1) (hi : b1.ibuf = b.ibuf.set b.ibufNext x)
    (hr' : RelIn (protoOf K fun _ _ => Eff.lift (.error .illTyped)) b1' p1) (hs' : Same b' b1') (ho' : OutSame b' b1')
    (hi' : b1'.ibuf = b'.ibuf.set b'.ibufNext x) : RSim P K fl b1 b1' p1 where
  inp := hr
  inp' := hr'
  ok := h.ok.same hs
  ok' := h.ok'.same hs'
  shared := by rw [hs.shared, hs'.shared, h.shared]
  ilen := by rw [hs.ilen, h.ilen]
  ilen' := by rw [hs'.ilen, h.ilen']
  olen := by rw [hs.olen, hs'.olen, h.olen]
  size := by rw [hs'.size]; exact h.size
  next := by rw [ho.next, ho'.next, h.next]
  bottom := by rw [ho.bottom, ho'.bottom, h.bottom]
  le := by rw [ho.next, ho.bottom]; exact h.le
  ble := by rw [ho.bottom, hs.outLen]; exact h.ble
  bytes := by
    intro i hlt
    rw [ho.bottom] at hlt
    have := h.bytes i hlt
    unfold Buf.out at this ⊢
    rw [hs.shared, hs'.shared, h.shared] at *
    split
    · rename_i hsh
      rw [if_pos hsh, if_pos hsh] at this
      rw [hi, hi', h.inp.next, h.inp'.next, List.getElem?_set, List.getElem?_set, h.ilen, h.ilen', this]
    · rename_i hsh
      rw [if_neg hsh, if_neg hsh] at this
      rw [ho.obuf, ho'.obuf, this]

theorem finish_fields (b : Buf σ) (n : Nat) (resp : List Byte) : (b.finish n resp).obufNext = 0 ∧ (b.finish n resp).obufBottom = resp.length ∧
    (b.finish n resp).out = splice b.out 0 resp := by
  refine ⟨by unfold Buf.finish Buf.pushAll; cases b.shared <;> rfl, ?_, ?_⟩
  · show (({ b with obufBottom := 0, obufNext := 0 } : Buf σ).pushAll resp).obufBottom = _
    rw [pushAll_bottom]; exact Nat.zero_add _
  · show (({ b with obufBottom := 0, obufNext := 0 } : Buf σ).pushAll resp).out = _
    rw [pushAll_out]; rfl

/-- Both have output the same response. -/
theorem RSim.finished {fl : Nat → List Val → Eff σ (Option Val)} {b b' b1 b1' : Buf σ} {pending resp : List Byte} (h : RSim P K fl b b' pending)
    (hs : Same b b1) (hs' : Same b' b1') (hf : resp.length ≤ b.out.length) :
    RSim P K fl (b1.finish K.idxBytes resp) (b1'.finish K.idxBytes resp) [] := by
  have hpos : 1 ≤ (protoOf K fl).idxBytes := h.ok.serves.pos
  have hf1 : resp.length ≤ b1.out.length := by rw [hs.outLen]; exact hf
  have hf1' : resp.length ≤ b1'.out.length := by rw [hs'.outLen, h.outLen]; exact hf
  have hs2 := hs.trans (finish_same (n := K.idxBytes) hf1)
  have hs2' := hs'.trans (finish_same (n := K.idxBytes) hf1')
  obtain ⟨h1, h2, h3⟩ := finish_fields b1 K.idxBytes resp
  obtain ⟨h1', h2', h3'⟩ := finish_fields b1' K.idxBytes resp
  exact {
    inp := finish_relIn hpos
    inp' := finish_relIn h.ok'.serves.pos
    ok := h.ok.same hs2
    ok' := h.ok'.same hs2'
    shared := by rw [hs2.shared, hs2'.shared, h.shared]
    ilen := by rw [hs2.ilen, h.ilen]
    ilen' := by rw [hs2'.ilen, h.ilen']
    olen := by rw [hs2.olen, hs2'.olen, h.olen]
    size := by rw [hs2'.size]; exact h.size
    next := by rw [h1, h1']
    bottom := by rw [h2, h2']
    le := by rw [h1]; exact Nat.zero_le _
    ble := by rw [h2, h3, splice_length (by omega)]; exact hf1
    bytes := by
      intro i hi
      rw [h2] at hi
      rw [h3, h3', splice_getElem? (by omega), splice_getElem? (by omega)]
      simp [hi] }

/-- Same results, and the final states are related. -/
def RSimRes (P : Platform) (K : Keyring) (fl : Nat → List Val → Eff σ (Option Val)) {γ : Type} : Res (BState σ) γ → Res (BState σ) γ → Prop
  | .ret a (b', w), .ret a' (b, w') => a = a' ∧ w = w' ∧ ∃ pending, RSim P K fl b b' pending
  | .threw (_, w), .threw (_, w') => w = w'
  | .fault f, .fault f' => f = f'
  | _, _ => False

/-- The same, unless the callbacks of `b` do not behave as those of `b'`, in which case it may be that the latter does not return. -/
def RSimResL (P : Platform) (K : Keyring) (fl : Nat → List Val → Eff σ (Option Val)) (room : Nat → Nat) (defs : Nat → List Val → Prog σ) {γ : Type}
    (x y : Res (BState σ) γ) : Prop :=
  RSimRes P K fl x y ∨ ((∃ name args w, fl name args w ≠ flat P (room name) (defs name args) w) ∧ ∀ a st, x ≠ .ret a st)

theorem RSimResL.bind {fl : Nat → List Val → Eff σ (Option Val)} {α γ : Type} {x y : Eff (BState σ) α} {k l : α → Eff (BState σ) γ} {st st' : BState σ}
    (h : RSimResL P K fl room defs (x st') (y st))
    (hk : ∀ (a : α) (b b' : Buf σ) (pending : List Byte) (w : σ), RSim P K fl b b' pending → RSimResL P K fl room defs (k a (b', w)) (l a (b, w))) :
    RSimResL P K fl room defs ((x >>= k) st') ((y >>= l) st) := by
  rcases h with h | ⟨h, h'⟩
  · cases e1 : x st' <;> cases e2 : y st <;> rw [e1, e2] at h
    · rename_i a1 s1 a2 s2
      obtain ⟨b1, w1⟩ := s1
      obtain ⟨b2, w2⟩ := s2
      obtain ⟨rfl, rfl, p1, h⟩ := h
      rw [Eff.bind_ret e1, Eff.bind_ret e2]
      exact hk _ _ _ _ _ h
    · exact h.elim
    · exact h.elim
    · exact h.elim
    · rw [Eff.bind_threw e1, Eff.bind_threw e2]; exact Or.inl h
    · exact h.elim
    · exact h.elim
    · exact h.elim
    · rw [Eff.bind_fault e1, Eff.bind_fault e2]; exact Or.inl h
  · refine Or.inr ⟨h, fun a s => ?_⟩
    cases e1 : x st' with
    | ret a1 s1 => exact absurd e1 (h' _ _)
    | threw s1 => rw [Eff.bind_threw e1]; exact fun h => by cases h
    | fault e => rw [Eff.bind_fault e1]; exact fun h => by cases h

theorem classify_shape (K : Keyring) (d1 d2 : Nat → List Val → Eff σ (Option Val)) (bs : List Byte) :
    ((protoOf K d1).classify bs = .more ∧ (protoOf K d2).classify bs = .more) ∨
    ((protoOf K d1).classify bs = .bad ∧ (protoOf K d2).classify bs = .bad) ∨
    ∃ (i : Nat) (hi : i < K.decls.length) (args : List Byte),
      (protoOf K d1).classify bs = .request ⟨K.decls[i].sig, d1 K.decls[i].name⟩ args ∧
      (protoOf K d2).classify bs = .request ⟨K.decls[i].sig, d2 K.decls[i].name⟩ args ∧
      wireValue K.e (bs.take K.idxBytes) = i := by
  unfold Proto.classify
  by_cases h : bs.length < (protoOf K d1).idxBytes
  · have h' : bs.length < (protoOf K d2).idxBytes := h
    rw [if_pos h, if_pos h']
    exact Or.inl ⟨rfl, rfl⟩
  · have h' : ¬ bs.length < (protoOf K d2).idxBytes := h
    rw [if_neg h, if_neg h']
    by_cases hi : wireValue K.e (bs.take K.idxBytes) < K.decls.length
    · have e1 := protoOf_at (defs := d1) hi
      have e2 := protoOf_at (defs := d2) hi
      have e1' : (protoOf K d1).cbs[wireValue (protoOf K d1).e (bs.take (protoOf K d1).idxBytes)]? = _ := e1
      have e2' : (protoOf K d2).cbs[wireValue (protoOf K d2).e (bs.take (protoOf K d2).idxBytes)]? = _ := e2
      rw [e1', e2']
      simp only
      by_cases hm : bs.length < K.idxBytes + wireSizes K.decls[wireValue K.e (bs.take K.idxBytes)].sig.params
      · have hm1 : bs.length < (protoOf K d1).idxBytes + wireSizes K.decls[wireValue K.e (bs.take K.idxBytes)].sig.params := hm
        have hm2 : bs.length < (protoOf K d2).idxBytes + wireSizes K.decls[wireValue K.e (bs.take K.idxBytes)].sig.params := hm
        rw [if_pos hm1, if_pos hm2]
        exact Or.inl ⟨rfl, rfl⟩
      · have hm1 : ¬ bs.length < (protoOf K d1).idxBytes + wireSizes K.decls[wireValue K.e (bs.take K.idxBytes)].sig.params := hm
        have hm2 : ¬ bs.length < (protoOf K d2).idxBytes + wireSizes K.decls[wireValue K.e (bs.take K.idxBytes)].sig.params := hm
        rw [if_neg hm1, if_neg hm2]
        exact Or.inr (Or.inr ⟨_, hi, bs.drop K.idxBytes, rfl, rfl, rfl⟩)
    · have e1 : (protoOf K d1).cbs[wireValue (protoOf K d1).e (bs.take (protoOf K d1).idxBytes)]? = none := by
        rw [List.getElem?_eq_none_iff]; show (K.decls.map _).length ≤ wireValue K.e (bs.take K.idxBytes); simp; omega
      have e2 : (protoOf K d2).cbs[wireValue (protoOf K d2).e (bs.take (protoOf K d2).idxBytes)]? = none := by
        rw [List.getElem?_eq_none_iff]; show (K.decls.map _).length ≤ wireValue K.e (bs.take K.idxBytes); simp; omega
      rw [e1, e2]
      exact Or.inr (Or.inl ⟨rfl, rfl⟩)

theorem putR_sim (h : Setting P K f fun name args => flat P (room name) (defs name args)) (hroom : Leaves K room) {fl : Nat → List Val → Eff σ (Option Val)}
    (hfl : ∀ name args w, fl name args w = flat P (room name) (defs name args) w ∨ ∀ r w', flat P (room name) (defs name args) w ≠ .ret r w') (depth : Nat) {b b' : Buf σ}
    {pending : List Byte} (hs : RSim P K fl b b' pending) (x : Byte) (w : σ) :
    RSimResL P K fl room defs (Buf.putR P K f defs depth x (b', w)) (Buf.put P x (b, w)) := by
  rcases classify_shape K fl (fun _ _ => Eff.lift (.error .illTyped)) (pending ++ [x]) with
    ⟨h1, h2⟩ | ⟨h1, h2⟩ | ⟨i, hi, args, h1, h2, h3⟩
  · obtain ⟨b1, e1, r1, s1, o1, i1⟩ := putWith_more_room h.valid (Buf.call P) hs.inp hs.ok.serves (hs.inp.lt hs.ok) h1
    obtain ⟨b2, e2, r2, s2, o2, i2⟩ :=
      putWith_more_room h.valid (Buf.callR P K f defs (depth + 1)) hs.inp' hs.ok'.serves (hs.inp'.lt hs.ok') h2
    have e1' : Buf.put P x (b, w) = _ := e1 w
    have e2' : Buf.putR P K f defs depth x (b', w) = _ := e2 w
    rw [e1', e2']
    exact Or.inl ⟨rfl, rfl, _, hs.stored r1 s1 o1 i1 r2 s2 o2 i2⟩
  · obtain ⟨b1, e1, r1, s1, o1, i1⟩ := putWith_bad h.valid (Buf.call P) hs.inp hs.ok h1 w
    obtain ⟨b2, e2, r2, s2, o2, i2⟩ := putWith_bad h.valid (Buf.callR P K f defs (depth + 1)) hs.inp' hs.ok' h2 w
    have e1' : Buf.put P x (b, w) = _ := e1
    have e2' : Buf.putR P K f defs depth x (b', w) = _ := e2
    rw [e1', e2']
    exact Or.inl ⟨rfl, rfl, _, hs.stored r1 s1 o1 i1 r2 s2 o2 i2⟩
  · obtain ⟨hm, hl, e1, x1, a1⟩ := putWith_request_full h.valid (Buf.call P) hs.inp hs.ok h1 w
    obtain ⟨_, _, e2, x2, a2⟩ := putWith_request_full h.valid (Buf.callR P K f defs (depth + 1)) hs.inp' hs.ok' h2 w
    have e1' : Buf.put P x (b, w) = _ := e1
    have e2' : Buf.putR P K f defs depth x (b', w) = _ := e2
    rw [e1', e2']
    have s1 : Same b (b.loaded x) := ⟨rfl, rfl, (stored_same b x).ilen, rfl, rfl⟩
    have s2 : Same b' (b'.loaded x) := ⟨rfl, rfl, (stored_same b' x).ilen, rfl, rfl⟩
    have hb1 := hs.ok.same s1
    have hb2 := hs.ok'.same s2
    have hrm := hroom _ (List.getElem_mem hi)
    have hil : (b'.loaded x).ibuf.length = neededInput K := by rw [s2.ilen, hs.ilen']
    have hby := stored_bytes hs.inp' hs.ok' x
    have hpl : pending.length + 1 = K.idxBytes + wireSizes K.decls[i].sig.params := by
      have := hl
      unfold Proto.classify at h1
      split at h1
      · cases h1
      · rename_i hge
        have hge : ¬ (pending ++ [x]).length < K.idxBytes := hge
        split at h1
        · cases h1
        · split at h1
          · cases h1
          · injection h1 with _ h1
            have h1 : (pending ++ [x]).drop K.idxBytes = args := h1
            have hl : args.length = wireSizes K.decls[i].sig.params := hl
            rw [← h1] at hl
            simp only [List.length_drop, List.length_append, List.length_cons, List.length_nil] at hl hge
            omega
    have hidx : wireValue K.e (slice (b'.loaded x).ibuf 0 K.idxBytes) = i := by
      have hsl : slice (b'.loaded x).ibuf 0 K.idxBytes = (pending ++ [x]).take K.idxBytes := by
        show slice (b'.stored x).ibuf 0 K.idxBytes = _
        rw [← hby, slice_take (by omega)]
      rw [hsl]; exact h3
    have a2 : slice (b'.loaded x).ibuf K.idxBytes (wireSizes K.decls[i].sig.params) = args := a2
    have hg := h.ring.2 _ (List.getElem_mem hi)
    rcases decodes_cases h.valid hs.ok.serves.sup (cb := ⟨K.decls[i].sig, fl K.decls[i].name⟩)
      hg hl with hdec | ⟨e, he, _⟩
    · have c1 := call_buf h.valid hb1.serves x1 (hb1.room _ hm) (by rw [a1]; exact hdec) w
      have c2 := callR_buf h depth hi hidx (by rw [hil]; exact hrm)
        (show b'.ibufNext + 1 = _ by rw [hs.inp'.next]; exact hpl) rfl rfl (by rw [hil]; exact hs.size)
        (by rw [a2]; exact hdec.1) hdec.2 w
      rw [a1] at c1
      simp only at c1
      rcases hfl K.decls[i].name (unwires (protoOf K fl).e (protoOf K fl).s K.decls[i].sig.params args) w with hq | hq
      · left
        rw [hq] at c1
        cases hfn : flat P (room K.decls[i].name) (defs K.decls[i].name (unwires (protoOf K fl).e (protoOf K fl).s K.decls[i].sig.params args)) w with
        | fault e =>
          rw [hfn] at c1 c2
          rw [Eff.bind_fault c1, Eff.bind_fault c2]
          exact rfl
        | threw w' =>
          rw [hfn] at c1 c2
          obtain ⟨b3, c2⟩ := c2
          rw [Eff.bind_threw c1, Eff.bind_threw c2]
          exact rfl
        | ret r w' =>
          rw [hfn] at c1 c2
          have hol : (b'.loaded x).out.length = b.out.length := by rw [s2.outLen, hs.outLen]
          rcases c2 with ⟨hf, b3, ht, c2⟩ | ⟨hf, c2⟩
          · have hf' : (response K.e K.s K.decls[i].sig.ret r).length ≤ (b.loaded x).out.length := by rw [s1.outLen, ← hol]; exact hf
            have c1 := c1.trans (if_pos hf')
            rw [Eff.bind_ret c1, Eff.bind_ret c2]
            have s3 : Same b' b3 := by
              have := ht.same
              exact ⟨this.disp, this.shared, this.ilen.trans s2.ilen, this.olen, this.size⟩
            exact ⟨rfl, rfl, [], hs.finished s1 s3 (by rw [← hol]; exact hf)⟩
          · have hf' : ¬ (response K.e K.s K.decls[i].sig.ret r).length ≤ (b.loaded x).out.length := by rw [s1.outLen, ← hol]; omega
            have c1 := c1.trans (if_neg hf')
            rw [Eff.bind_fault c1, Eff.bind_fault c2]
            exact rfl
      · by_cases hq' : fl K.decls[i].name (unwires (protoOf K fl).e (protoOf K fl).s K.decls[i].sig.params args) w =
            flat P (room K.decls[i].name) (defs K.decls[i].name (unwires (protoOf K fl).e (protoOf K fl).s K.decls[i].sig.params args)) w
        · left
          rw [hq'] at c1
          cases hfn : flat P (room K.decls[i].name) (defs K.decls[i].name (unwires (protoOf K fl).e (protoOf K fl).s K.decls[i].sig.params args)) w with
          | fault e =>
            rw [hfn] at c1 c2
            rw [Eff.bind_fault c1, Eff.bind_fault c2]
            exact rfl
          | threw w' =>
            rw [hfn] at c1 c2
            obtain ⟨b3, c2⟩ := c2
            rw [Eff.bind_threw c1, Eff.bind_threw c2]
            exact rfl
          | ret r w' => exact absurd hfn (hq _ _)
        · refine Or.inr ⟨⟨_, _, _, hq'⟩, fun a st => ?_⟩
          cases hfn : flat P (room K.decls[i].name) (defs K.decls[i].name (unwires (protoOf K fl).e (protoOf K fl).s K.decls[i].sig.params args)) w with
          | fault e =>
            rw [hfn] at c2
            rw [Eff.bind_fault c2]
            exact fun h => by cases h
          | threw w' =>
            rw [hfn] at c2
            obtain ⟨b3, c2⟩ := c2
            rw [Eff.bind_threw c2]
            exact fun h => by cases h
          | ret r w' => exact absurd hfn (hq _ _)
    · rw [Eff.bind_fault (call_buf_fault h.valid hb1.serves x1 (hb1.room _ hm) (by rw [a1]; exact he) w),
        Eff.bind_fault (callR_fault h depth hi hidx (by rw [hil]; omega) (by rw [a2]; exact he) w)]
      exact Or.inl rfl

theorem io_sim (h : Setting P K f fun name args => flat P (room name) (defs name args)) (hroom : Leaves K room) {fl : Nat → List Val → Eff σ (Option Val)}
    (hfl : ∀ name args w, fl name args w = flat P (room name) (defs name args) w ∨ ∀ r w', flat P (room name) (defs name args) w ≠ .ret r w') (depth : Nat) {b b' : Buf σ}
    {pending : List Byte} (hs : RSim P K fl b b' pending) (op : Io) (w : σ) :
    RSimResL P K fl room defs (op.runR P K f defs depth (b', w)) (op.run P (b, w)) := by
  cases op with
  | put x =>
    have h1 := putR_sim h hroom hfl depth hs x w
    exact h1.bind fun a b b' pending w hs => Or.inl ⟨rfl, rfl, pending, hs⟩
  | isLoaded =>
    refine Or.inl ⟨?_, rfl, pending, hs⟩
    show Obs.bool (b'.obufNext != b'.obufBottom) = .bool (b.obufNext != b.obufBottom)
    rw [hs.next, hs.bottom]
  | get =>
    show RSimResL P K fl room defs ((Buf.get >>= fun x => pure (.byte x) : Eff (BState σ) Obs) (b', w)) ((Buf.get >>= fun x => pure (.byte x) : Eff (BState σ) Obs) (b, w))
    have hl : b'.isLoaded = b.isLoaded := by unfold Buf.isLoaded; rw [hs.next, hs.bottom]
    cases hb : b.isLoaded with
    | false =>
      have g1 : Buf.get (b', w) = .ret 0#8 (b', w) := by
        unfold Buf.get; rw [if_neg (by show ¬ b'.isLoaded = true; rw [hl, hb]; simp)]
      have g2 : Buf.get (b, w) = .ret 0#8 (b, w) := by
        unfold Buf.get; rw [if_neg (by show ¬ b.isLoaded = true; rw [hb]; simp)]
      rw [Eff.bind_ret g1, Eff.bind_ret g2]
      exact Or.inl ⟨rfl, rfl, pending, hs⟩
    | true =>
      have hlt : b.obufNext < b.obufBottom := by
        have := hs.le
        unfold Buf.isLoaded at hb
        simp at hb
        omega
      have hble := hs.ble
      obtain ⟨y, hy⟩ : ∃ y, b.out[b.obufNext]? = some y := ⟨_, List.getElem?_eq_getElem (by omega)⟩
      have hy' := hs.bytes _ hlt
      rw [hy] at hy'
      have g1 : Buf.get (b', w) = .ret y ({ b' with obufNext := b'.obufNext + 1 }, w) := by
        unfold Buf.get Buf.popOut
        rw [if_pos (by show b'.isLoaded = true; rw [hl, hb])]
        simp only [hs.next]
        rw [hy']
      have g2 : Buf.get (b, w) = .ret y ({ b with obufNext := b.obufNext + 1 }, w) := by
        unfold Buf.get Buf.popOut
        rw [if_pos (by show b.isLoaded = true; rw [hb])]
        simp only
        rw [hy]
      rw [Eff.bind_ret g1, Eff.bind_ret g2]
      refine Or.inl ⟨rfl, rfl, pending, ?_⟩
      exact {
        inp := ⟨hs.inp.next, hs.inp.le, hs.inp.bytes, hs.inp.load⟩
        inp' := ⟨hs.inp'.next, hs.inp'.le, hs.inp'.bytes, hs.inp'.load⟩
        ok := hs.ok.same ⟨rfl, rfl, rfl, rfl, rfl⟩
        ok' := hs.ok'.same ⟨rfl, rfl, rfl, rfl, rfl⟩
        shared := hs.shared
        ilen := hs.ilen
        ilen' := hs.ilen'
        olen := hs.olen
        size := hs.size
        next := congrArg (· + 1) hs.next
        bottom := hs.bottom
        le := hlt
        ble := hs.ble
        bytes := hs.bytes }

theorem runAll_sim (h : Setting P K f fun name args => flat P (room name) (defs name args)) (hroom : Leaves K room) {fl : Nat → List Val → Eff σ (Option Val)}
    (hfl : ∀ name args w, fl name args w = flat P (room name) (defs name args) w ∨ ∀ r w', flat P (room name) (defs name args) w ≠ .ret r w') (depth : Nat) :
    ∀ (ops : List Io) {b b' : Buf σ} {pending : List Byte} {w : σ}, RSim P K fl b b' pending →
    RSimResL P K fl room defs (runAll (Io.runR P K f defs depth) ops (b', w)) (runAll (Io.run P) ops (b, w))
  | [], b, b', pending, w, hs => Or.inl ⟨rfl, rfl, pending, hs⟩
  | op :: ops, b, b', pending, w, hs => by
    exact (io_sim h hroom hfl depth hs op w).bind fun a b b' pending w hs =>
      (runAll_sim h hroom hfl depth ops hs).bind fun a b b' pending w hs => Or.inl ⟨rfl, rfl, pending, hs⟩

theorem fresh_sim {fl : Nat → List Val → Eff σ (Option Val)} (h : Setting P K f fl) {sizeMax : Nat} (hsz : neededInput K ≤ sizeMax) (shared : Bool) :
    RSim P K fl
      (fresh P K f fl sizeMax shared) (Buf.freshR P K f sizeMax shared) [] := by
  have h' : Setting P K f (fun _ _ => Eff.lift (σ := σ) (.error .illTyped)) :=
    ⟨h.valid, h.ring, h.sup, h.sizes, fun d _ args w r w' _ he => by cases he⟩
  have e : Buf.freshR P K f sizeMax shared = fresh (σ := σ) P K f (fun _ _ => Eff.lift (.error .illTyped)) sizeMax shared := rfl
  rw [e]
  exact {
    inp := (fresh_rel h sizeMax shared).inp
    inp' := (fresh_rel h' sizeMax shared).inp
    ok := fresh_ok h sizeMax shared
    ok' := fresh_ok h' sizeMax shared
    shared := by rw [fresh_shared, fresh_shared]
    ilen := fresh_ilen ..
    ilen' := fresh_ilen ..
    olen := by cases shared <;> rfl
    size := by cases shared <;> exact hsz
    next := by cases shared <;> rfl
    bottom := by cases shared <;> rfl
    le := by cases shared <;> exact Nat.le_refl _
    ble := by cases shared <;> exact Nat.zero_le _
    bytes := by cases shared <;> exact fun i hi => absurd hi (Nat.not_lt_zero _) }

end

/-- The loops of `read_from` are the same ones, for callbacks which do not refer to the dispatcher. -/
theorem readFromWith_put (P : Platform) (src : Eff σ Byte) : Buf.readFromWith (Buf.put P) src = Buf.readFrom P src := by
  have h1 : ∀ fuel status, Buf.readLoop1With (Buf.put P) src fuel status = Buf.readLoop1 P src fuel status := by
    intro fuel
    induction fuel with
    | zero => intro _; rfl
    | succ n ih => intro status; unfold Buf.readLoop1With Buf.readLoop1; simp only [ih]
  have h2 : ∀ fuel status, Buf.readLoop2With (Buf.put P) src fuel status = Buf.readLoop2 P src fuel status := by
    intro fuel
    induction fuel with
    | zero => intro _; rfl
    | succ n ih => intro status; unfold Buf.readLoop2With Buf.readLoop2; simp only [ih]
  unfold Buf.readFromWith Buf.readFrom
  simp only [h1, h2]

end Upd
