import Verif.Spec.Caught
import Verif.Lemmas.MachineExact
import Verif.Props.Throwing

/-! Helper lemmas: interleavings of `put` and `get` when the exceptions are caught. -/

namespace Upd
open Spec TypeList

variable {σ : Type}

/-- The input side. -/
def RelInC (p : Proto σ) (b : Buf σ) : Input → Prop
  | .pending l => RelIn p b l
  | .stuck n => b.ibufNext = n ∧ n ≤ b.ibuf.length ∧ (b.loadCount = 0 ∨ b.ibuf.length < n + b.loadCount)

/-- The whole state. -/
structure RelC (p : Proto σ) (b : Buf σ) (m : CMachine) : Prop where
  inp : RelInC p b m.inp
  outp : Unread b m.out

/-- Same results, and the final states are related. -/
def FollowsC (p : Proto σ) (b0 : Buf σ) {γ : Type} : Res (BState σ) γ → Res (CMachine × σ) γ → Prop
  | .ret a (b, w), .ret a' (m, w') => a = a' ∧ w = w' ∧ RelC p b m ∧ Same b0 b
  | .threw (b, w), .threw (m, w') => w = w' ∧ RelC p b m ∧ Same b0 b
  | .fault f, .fault f' => f = f'
  | _, _ => False

theorem FollowsC.map {p : Proto σ} {b0 : Buf σ} {st : BState σ} {t : CMachine × σ} {α γ : Type} {f : Eff (BState σ) α} {g : Eff (CMachine × σ) α}
    (k : α → γ) (h : FollowsC p b0 (f st) (g t)) : FollowsC p b0 ((f >>= fun a => pure (k a)) st) ((g >>= fun a => pure (k a)) t) := by
  cases hf : f st with
  | fault e =>
    rw [hf] at h; rw [Eff.bind_fault hf]
    cases hg : g t with
    | fault e' => rw [hg] at h; rw [Eff.bind_fault hg]; exact h
    | threw t => rw [hg] at h; exact h.elim
    | ret a t => rw [hg] at h; exact h.elim
  | threw s =>
    rw [hf] at h; rw [Eff.bind_threw hf]
    cases hg : g t with
    | fault e' => rw [hg] at h; exact h.elim
    | threw t => rw [hg] at h; rw [Eff.bind_threw hg]; exact h
    | ret a t => rw [hg] at h; exact h.elim
  | ret a s =>
    rw [hf] at h; rw [Eff.bind_ret hf]
    cases hg : g t with
    | fault e' => rw [hg] at h; exact h.elim
    | threw t => rw [hg] at h; exact h.elim
    | ret a t => rw [hg] at h; rw [Eff.bind_ret hg]; exact ⟨congrArg k h.1, h.2⟩

theorem FollowsC.same {p : Proto σ} {b0 b1 : Buf σ} {γ : Type} {r : Res (BState σ) γ} {r' : Res (CMachine × σ) γ}
    (h : FollowsC p b1 r r') (hs : Same b0 b1) : FollowsC p b0 r r' := by
  cases r with
  | fault f => cases r' <;> exact h
  | threw t =>
    cases r' with
    | fault => exact h
    | threw => exact ⟨h.1, h.2.1, hs.trans h.2.2⟩
    | ret => exact h
  | ret a t =>
    cases r' with
    | fault => exact h
    | threw => exact h
    | ret => exact ⟨h.1, h.2.1, h.2.2.1, hs.trans h.2.2.2⟩

theorem FollowsC.sameOutcome {p : Proto σ} {b0 : Buf σ} {γ : Type} {r : Res (BState σ) γ} {r' : Res (CMachine × σ) γ}
    (h : FollowsC p b0 r r') : SameOutcome r r' := by
  cases r with
  | fault f => cases r' <;> exact h
  | threw t =>
    cases r' with
    | fault => exact h
    | threw => exact h.1
    | ret => exact h
  | ret a t =>
    cases r' with
    | fault => exact h
    | threw => exact h
    | ret => exact ⟨h.1, h.2.1⟩

theorem put_overrun {P : Platform} {b : Buf σ} (h : ¬ b.ibufNext < b.ibuf.length) (x : Byte) (w : σ) :
    Buf.put P x (b, w) = .fault .ibufOverrun := by
  have hp : b.pushIn x = .error .ibufOverrun := by
    unfold Buf.pushIn
    rw [if_neg h]
  unfold Buf.put Buf.putWith
  show (Eff.lift (b.pushIn x) >>= _) (b, w) = _
  rw [hp]
  rfl

theorem put_caught {P : Platform} (hP : P.Valid) {p : Proto σ} {b : Buf σ} {m : CMachine} (h : RelC p b m) (hb : BufOk P p b)
    (hs : b.ibuf.length ≤ b.sizeMax) (hd : b.shared = true → m.out = []) (x : Byte) (w : σ) :
    FollowsC p b (Buf.put P x (b, w)) (CMachine.put P p b.ibuf.length b.out.length x (m, w)) := by
  obtain ⟨inp, out⟩ := m
  obtain ⟨hi, ho⟩ := h
  cases inp with
  | pending l =>
    have h1 := put_exact hP (p := p) (b := b) (m := ⟨l, out⟩) ⟨hi, ho⟩ hb hd x w
    unfold CMachine.put
    simp only
    revert h1
    cases he : Buf.put P x (b, w) with
    | fault f => cases Machine.putExact P p b.out.length x (⟨l, out⟩, w) <;> exact id
    | threw t =>
      obtain ⟨b', w'⟩ := t
      cases Machine.putExact P p b.out.length x (⟨l, out⟩, w) with
      | fault f => exact id
      | ret a t => exact id
      | threw t =>
        obtain ⟨m', w''⟩ := t
        intro h1
        obtain ⟨_, h2, h3, h4, _, h5, h6⟩ := put_threw_rel hP hi hb he
        exact ⟨h1, ⟨⟨h4, by rw [h2.ilen]; omega, .inl h3⟩, h6⟩, h2⟩
    | ret a t =>
      obtain ⟨b', w'⟩ := t
      cases Machine.putExact P p b.out.length x (⟨l, out⟩, w) with
      | fault f => exact id
      | threw t => exact id
      | ret a' t =>
        obtain ⟨m', w''⟩ := t
        rintro ⟨h1, h2, h3, h4⟩
        exact ⟨h1, h2, ⟨h3.inp, h3.outp⟩, h4⟩
  | stuck n =>
    obtain ⟨h1, h2, h3⟩ := hi
    unfold CMachine.put
    simp only
    by_cases hroom : n < b.ibuf.length
    · rw [if_pos hroom, put_loading_raw (by omega) (by omega) (by omega)]
      have h4 : Same b { b with ibuf := b.ibuf.set b.ibufNext x, ibufNext := b.ibufNext + 1, loadCount := decSize b.sizeMax b.loadCount } :=
        ⟨rfl, rfl, by simp, rfl, rfl⟩
      refine ⟨rfl, rfl, ⟨⟨congrArg (· + 1) h1, by rw [h4.ilen]; omega, .inr ?_⟩, unread_keep ho h4 ⟨rfl, rfl, rfl⟩ hd⟩, h4⟩
      rw [h4.ilen]
      simp only
      unfold decSize
      split <;> omega
    · rw [if_neg hroom, put_overrun (by omega)]
      exact rfl

theorem io_caught {P : Platform} (hP : P.Valid) {p : Proto σ} {b : Buf σ} {m : CMachine} (h : RelC p b m) (hb : BufOk P p b)
    (hs : b.ibuf.length ≤ b.sizeMax) (op : Io) (hd : b.shared = true → (∃ x, op = .put x) → m.out = []) (w : σ) :
    FollowsC p b (op.run P (b, w)) (op.runC P p b.ibuf.length b.out.length (m, w)) := by
  cases op with
  | put x => exact FollowsC.map _ (put_caught hP h hb hs (fun h => hd h ⟨x, rfl⟩) x w)
  | get =>
    refine FollowsC.map _ ?_
    obtain ⟨inp, out⟩ := m
    cases out with
    | nil => rw [get_empty h.outp w]; exact ⟨rfl, rfl, h, Same.refl b⟩
    | cons x out =>
      obtain ⟨b', h1, h2, h3, h4⟩ := get_cons h.outp w
      rw [h1]
      refine ⟨rfl, rfl, ⟨?_, h2⟩, h3⟩
      subst h4
      cases inp with
      | pending l => exact relIn_next h.inp _
      | stuck n => exact h.inp
  | isLoaded => exact ⟨by rw [unread_isLoaded h.outp], rfl, h, Same.refl b⟩

theorem runCaught_follows {P : Platform} (hP : P.Valid) {p : Proto σ} {size room : Nat} : ∀ {ops : List Io} {b : Buf σ} {m : CMachine} {w : σ},
    RelC p b m → BufOk P p b → b.ibuf.length = size → b.out.length = room → size ≤ b.sizeMax → (b.shared = true → DrainedCaught P ops (b, w)) →
    FollowsC p b (runCaught (Io.run P) ops (b, w)) (runCaught (Io.runC P p size room) ops (m, w))
  | [], b, m, w, h, _, _, _, _, _ => ⟨rfl, rfl, h, Same.refl b⟩
  | op :: ops, b, m, w, h, hb, hl1, hl2, hs, hd => by
    have hd1 : b.shared = true → (∃ x, op = .put x) → m.out = [] := by
      intro h1 h2
      have := (hd h1).1 h2
      rw [unread_isLoaded h.outp] at this
      simpa using this
    have h1 := io_caught hP h hb (by omega) op hd1 w
    rw [hl1, hl2] at h1
    unfold runCaught
    cases he : op.run P (b, w) with
    | fault f =>
      rw [he] at h1
      cases hm : op.runC P p size room (m, w) with
      | fault f => rw [hm] at h1; exact h1
      | ret a t => rw [hm] at h1; exact h1.elim
      | threw t => rw [hm] at h1; exact h1.elim
    | threw t =>
      obtain ⟨b', w'⟩ := t
      rw [he] at h1
      cases hm : op.runC P p size room (m, w) with
      | fault f => rw [hm] at h1; exact h1.elim
      | ret a t => rw [hm] at h1; exact h1.elim
      | threw t =>
        obtain ⟨m', w''⟩ := t
        rw [hm] at h1
        obtain ⟨rfl, h2, h3⟩ := h1
        exact (FollowsC.map _ (runCaught_follows hP h2 (hb.same h3) (by rw [h3.ilen]; exact hl1) (by rw [h3.outLen]; exact hl2)
          (by rw [h3.size]; exact hs) fun h4 => (hd (by rw [← h3.shared]; exact h4)).2 _ (.inr he))).same h3
    | ret o t =>
      obtain ⟨b', w'⟩ := t
      rw [he] at h1
      cases hm : op.runC P p size room (m, w) with
      | fault f => rw [hm] at h1; exact h1.elim
      | threw t => rw [hm] at h1; exact h1.elim
      | ret a t =>
        obtain ⟨m', w''⟩ := t
        rw [hm] at h1
        obtain ⟨rfl, rfl, h2, h3⟩ := h1
        exact (FollowsC.map _ (runCaught_follows hP h2 (hb.same h3) (by rw [h3.ilen]; exact hl1) (by rw [h3.outLen]; exact hl2)
          (by rw [h3.size]; exact hs) fun h4 => (hd (by rw [← h3.shared]; exact h4)).2 _ (.inl ⟨_, he⟩))).same h3

/-! ## All the member functions -/

/-- The state of a dispatcher whose callback has thrown, when it had received at least `k` bytes of the packet. -/
structure Stuck (k : Nat) (b : Buf σ) : Prop where
  ge : k ≤ b.ibufNext
  loaded : b.indexLoaded = true
  le : b.ibufNext ≤ b.ibuf.length
  load : b.loadCount = 0 ∨ b.ibuf.length < b.ibufNext + b.loadCount
  size : b.ibuf.length ≤ b.sizeMax
  unread : ∃ out, Unread b out

theorem Stuck.next {k : Nat} {b : Buf σ} (h : Stuck k b) {n : Nat} (hu : ∃ out, Unread { b with obufNext := n } out) : Stuck k { b with obufNext := n } :=
  ⟨h.ge, h.loaded, h.le, h.load, h.size, hu⟩

theorem put_stuck {k : Nat} {P : Platform} {b : Buf σ} (h : Stuck k b) (x : Byte) (w : σ) :
    (b.ibufNext < b.ibuf.length ∧ ∃ b', Buf.put P x (b, w) = .ret .loading (b', w) ∧ Same b b' ∧ Stuck k b' ∧ b'.ibufNext = b.ibufNext + 1 ∧
      OutSame b b') ∨
    (¬ b.ibufNext < b.ibuf.length ∧ Buf.put P x (b, w) = .fault .ibufOverrun) := by
  have hl := h.load
  have hz := h.size
  by_cases hroom : b.ibufNext < b.ibuf.length
  · have h4 : Same b { b with ibuf := b.ibuf.set b.ibufNext x, ibufNext := b.ibufNext + 1, loadCount := decSize b.sizeMax b.loadCount } :=
      ⟨rfl, rfl, by simp, rfl, rfl⟩
    refine .inl ⟨hroom, _, put_loading_raw hroom (by omega) (by omega) x w, h4, ⟨Nat.le_succ_of_le h.ge, h.loaded, by rw [h4.ilen]; exact hroom, .inr ?_, ?_, ?_⟩, rfl, ⟨rfl, rfl, rfl⟩⟩
    · rw [h4.ilen]
      simp only
      unfold decSize
      split <;> omega
    · rw [h4.ilen, h4.size]; exact hz
    · obtain ⟨out, ho⟩ := h.unread
      exact unread_any ho h4 ⟨rfl, rfl, rfl⟩
  · exact .inr ⟨hroom, put_overrun hroom x w⟩

theorem readLoop2_stuck {k : Nat} {P : Platform} {src : Eff σ Byte} : ∀ {fuel : Nat} {b : Buf σ} {w : σ} {status : Status}, Stuck k b →
    b.ibuf.length - b.ibufNext < fuel →
    match Buf.readLoop2 P src fuel status (b, w) with
    | .ret _ _ => False
    | .threw (b', _) => Same b b' ∧ Stuck k b' ∧ OutSame b b'
    | .fault f => f = .ibufOverrun ∨ ∃ w1, src w1 = .fault f
  | 0, b, w, status, h, hn => by omega
  | fuel + 1, b, w, status, h, hn => by
    have he : Buf.readLoop2 P src (fuel + 1) status (b, w) =
        (onWorld src >>= fun x => Buf.put P x >>= fun st => Buf.readLoop2 P src fuel st) (b, w) := by
      rw [Buf.readLoop2]
      show (if b.indexLoaded = true then _ else _ : Eff (BState σ) Status) (b, w) = _
      rw [if_pos h.loaded]
    rw [he]
    rcases onWorld_cases src b w with ⟨x, w1, _, h1⟩ | ⟨w1, _, h1⟩ | ⟨f, h0, h1⟩
    · rw [Eff.bind_ret h1]
      rcases put_stuck (P := P) h x w1 with ⟨h2, b', h3, h4, h5, h6, h8⟩ | ⟨_, h3⟩
      · rw [Eff.bind_ret h3]
        have := readLoop2_stuck (P := P) (src := src) (fuel := fuel) (w := w1) (status := .loading) h5 (by rw [h4.ilen, h6]; omega)
        revert this
        cases Buf.readLoop2 P src fuel .loading (b', w1) with
        | ret a t => exact id
        | threw t =>
          rintro ⟨h7, h9, h10⟩
          exact ⟨h4.trans h7, h9, ⟨h10.obuf.trans h8.obuf, h10.next.trans h8.next, h10.bottom.trans h8.bottom⟩⟩
        | fault f => exact id
      · rw [Eff.bind_fault h3]; exact .inl rfl
    · rw [Eff.bind_threw h1]; exact ⟨Same.refl b, h, ⟨rfl, rfl, rfl⟩⟩
    · rw [Eff.bind_fault h1]; exact .inr ⟨w, h0⟩

theorem readFrom_stuck {k : Nat} {P : Platform} (src : Eff σ Byte) {b : Buf σ} (h : Stuck k b) (w : σ) :
    match Buf.readFrom P src (b, w) with
    | .ret _ _ => False
    | .threw (b', _) => Same b b' ∧ Stuck k b' ∧ OutSame b b'
    | .fault f => f = .ibufOverrun ∨ ∃ w1, src w1 = .fault f := by
  have he : Buf.readFrom P src (b, w) = Buf.readLoop2 P src (b.ibuf.length + 2) .loading (b, w) := by
    show (Buf.readLoop1 P src (b.ibuf.length + 2) .loading >>= Buf.readLoop2 P src (b.ibuf.length + 2)) (b, w) = _
    have h1 : Buf.readLoop1 P src (b.ibuf.length + 2) .loading (b, w) = .ret .loading (b, w) := by
      rw [Buf.readLoop1]
      show (if (!b.indexLoaded && decide (Status.loading = .loading)) = true then _ else _ : Eff (BState σ) Status) (b, w) = _
      rw [if_neg (by simp [h.loaded])]
      rfl
    rw [Eff.bind_ret h1]
  rw [he]
  exact readLoop2_stuck h (by omega)

theorem get_stuck {k : Nat} {b : Buf σ} (h : Stuck k b) (w : σ) : ∃ x b', Buf.get (b, w) = .ret x (b', w) ∧ Same b b' ∧ Stuck k b' := by
  obtain ⟨out, ho⟩ := h.unread
  cases out with
  | nil => exact ⟨0, b, get_empty ho w, Same.refl b, h⟩
  | cons x out =>
    obtain ⟨b', h1, h2, h3, rfl⟩ := get_cons ho w
    exact ⟨x, _, h1, h3, h.next ⟨_, h2⟩⟩

theorem op_stuck {i : Nat} {P : Platform} (hP : P.Valid) {b : Buf σ} (h : Stuck i b) (op : Op σ) (hop : op.Ok P) (w : σ) :
    match op.run P (b, w) with
    | .ret _ (b', _) => Same b b' ∧ Stuck i b'
    | .threw (b', _) => Same b b' ∧ Stuck i b'
    | .fault f => (op.Input ∧ f = .ibufOverrun) ∨ op.UserFault f := by
  obtain ⟨out, ho⟩ := h.unread
  cases op with
  | put x =>
    show match (Buf.put P x >>= fun _ => pure ()) (b, w) with
      | .ret _ (b', _) => Same b b' ∧ Stuck i b'
      | .threw (b', _) => Same b b' ∧ Stuck i b'
      | .fault f => (True ∧ f = .ibufOverrun) ∨ False
    rcases put_stuck (P := P) h x w with ⟨_, b', h1, h2, h3, _⟩ | ⟨_, h1⟩
    · rw [Eff.bind_ret h1]; exact ⟨h2, h3⟩
    · rw [Eff.bind_fault h1]; exact .inl ⟨trivial, rfl⟩
  | get =>
    obtain ⟨x, b', h1, h2, h3⟩ := get_stuck h w
    show match (Buf.get >>= fun _ => pure ()) (b, w) with
      | .ret _ (b', _) => Same b b' ∧ Stuck i b'
      | .threw (b', _) => Same b b' ∧ Stuck i b'
      | .fault f => (False ∧ f = .ibufOverrun) ∨ False
    rw [Eff.bind_ret h1]
    exact ⟨h2, h3⟩
  | readFrom src =>
    have := readFrom_stuck (P := P) src h w
    show match (Buf.readFrom P src >>= fun _ => pure ()) (b, w) with
      | .ret _ (b', _) => Same b b' ∧ Stuck i b'
      | .threw (b', _) => Same b b' ∧ Stuck i b'
      | .fault f => (True ∧ f = .ibufOverrun) ∨ ∃ w, src w = .fault f
    revert this
    cases he : Buf.readFrom P src (b, w) with
    | fault f => rw [Eff.bind_fault he]; exact fun h => h.imp_left fun h => ⟨trivial, h⟩
    | threw t => rw [Eff.bind_threw he]; exact fun h => ⟨h.1, h.2.1⟩
    | ret st t => exact False.elim
  | writeTo dest =>
    show match Buf.writeTo dest (b, w) with
      | .ret _ (b', _) => Same b b' ∧ Stuck i b'
      | .threw (b', _) => Same b b' ∧ Stuck i b'
      | .fault f => (False ∧ f = .ibufOverrun) ∨ ∃ x w, dest x w = .fault f
    rcases writeTo_cases dest (w := w) ho with ⟨w', _, h2⟩ | ⟨sent, x, rest, w1, _, _, ⟨w', _, h3, h4⟩ | ⟨f, h3, h4⟩⟩
    · rw [h2]; exact ⟨same_next b _, h.next ⟨_, unread_drained ho⟩⟩
    · rw [h4]; exact ⟨same_next b _, h.next ⟨_, h3⟩⟩
    · rw [h4]; exact .inr ⟨x, w1, h3⟩
  | process src dest =>
    have := readFrom_stuck (P := P) src h w
    show match ((Buf.readFrom P src >>= fun status =>
        if status = .resolved then Buf.writeTo dest >>= fun _ => pure status else pure status) >>= fun _ => pure ()) (b, w) with
      | .ret _ (b', _) => Same b b' ∧ Stuck i b'
      | .threw (b', _) => Same b b' ∧ Stuck i b'
      | .fault f => (True ∧ f = .ibufOverrun) ∨ ((∃ w, src w = .fault f) ∨ ∃ x w, dest x w = .fault f)
    rw [bind_assoc]
    revert this
    cases he : Buf.readFrom P src (b, w) with
    | fault f => rw [Eff.bind_fault he]; exact fun h => h.imp (fun h => ⟨trivial, h⟩) .inl
    | threw t => rw [Eff.bind_threw he]; exact fun h => ⟨h.1, h.2.1⟩
    | ret st t => exact False.elim
  | reply k n output =>
    show match (Buf.reply P k n output >>= fun _ => pure ()) (b, w) with
      | .ret _ (b', _) => Same b b' ∧ Stuck i b'
      | .threw (b', _) => Same b b' ∧ Stuck i b'
      | .fault f => (False ∧ f = .ibufOverrun) ∨ ∃ x w, output x w = .fault f
    have he := reply_eq hP hop output ho w
    have hd : Same b { b with obufNext := b.obufBottom } ∧ Stuck i { b with obufNext := b.obufBottom } :=
      ⟨same_next b _, h.next ⟨_, unread_drained ho⟩⟩
    by_cases hc : b.obufNext = 0 ∧ out.length ≤ n
    · rw [if_pos hc] at he
      cases hp : putAll output (request k.e k.s k.idxBytes k.index k.sig.params
          [.arr ((splice (P.junkBytes n) 0 out).map fun x => .int x.toNat)]) w with
      | ret a w' => rw [hp] at he; rw [Eff.bind_ret he]; exact hd
      | threw w' => rw [hp] at he; rw [Eff.bind_threw he]; exact hd
      | fault f => rw [hp] at he; rw [Eff.bind_fault he]; exact .inr (putAll_fault hp)
    · rw [if_neg hc] at he
      rw [Eff.bind_ret he]
      exact ⟨Same.refl b, h⟩

theorem put_threw_stuck {P : Platform} (hP : P.Valid) {p : Proto σ} {b b' : Buf σ} {w w' : σ} {l : List Byte} (hm : RelIn p b l) (hb : BufOk P p b)
    (hs : b.ibuf.length ≤ b.sizeMax) {x : Byte} (ht : Buf.put P x (b, w) = .threw (b', w')) :
    Same b b' ∧ Stuck 1 b' ∧ b'.ibufNext = l.length + 1 ∧ Unread b' [] ∧ Throws p := by
  obtain ⟨⟨cb, h7, args, _, h8⟩, h1, h2, h3, h4, h5, h6⟩ := put_threw_rel hP hm hb ht
  exact ⟨h1, ⟨by omega, h4, by rw [h1.ilen, h3]; exact h5, .inl h2, by rw [h1.ilen, h1.size]; exact hs, _, h6⟩, h3, h6, cb, h7, args, w, w', h8⟩

theorem feed_threw {P : Platform} (hP : P.Valid) {p : Proto σ} {src : Eff σ Byte} : ∀ {n : Nat} {b b' : Buf σ} {m : Machine}
    {w w' : σ}, Rel p b m → BufOk P p b → b.ibuf.length ≤ b.sizeMax → b.ibuf.length - m.pending.length ≤ n →
    feed P src n (b, w) = .threw (b', w') → Same b b' ∧ ((∃ m', Rel p b' m') ∨ (Stuck 1 b' ∧ Throws p))
  | 0, b, b', m, w, w', h, hb, hz, hn, he => by have := h.inp.lt hb; omega
  | n + 1, b, b', m, w, w', h, hb, hz, hn, he => by
    rw [feed_step] at he
    rcases onWorld_cases src b w with ⟨x, w1, _, h1⟩ | ⟨w1, h0, h1⟩ | ⟨f', h0, h1⟩
    · rw [Eff.bind_ret h1] at he
      have hput := put_outcome hP h hb x w1
      revert hput
      cases hx : Buf.put P x (b, w1) with
      | fault f => rw [Eff.bind_fault hx] at he; cases he
      | threw t =>
        rw [Eff.bind_threw hx] at he
        cases he
        intro _
        obtain ⟨h2, h3, _, _, h4⟩ := put_threw_stuck hP h.inp hb hz hx
        exact ⟨h2, .inr ⟨h3, h4⟩⟩
      | ret st t =>
        obtain ⟨b1, w2⟩ := t
        rw [Eff.bind_ret hx] at he
        rintro ⟨hs, ⟨rfl, h2, h3, _⟩ | ⟨rfl, h2, h3, _⟩ | ⟨rfl, h2, h3⟩⟩
        · obtain ⟨out, ho⟩ := unread_any h.outp hs h3
          simp only [if_true] at he
          obtain ⟨h4, h5⟩ := feed_threw hP (m := ⟨m.pending ++ [x], out⟩) ⟨h2, ho⟩ (hb.same hs) (by rw [hs.ilen, hs.size]; exact hz)
            (by rw [hs.ilen]; simp; omega) he
          exact ⟨hs.trans h4, h5⟩
        · cases he
        · cases he
    · rw [Eff.bind_threw h1] at he
      cases he
      exact ⟨Same.refl b, .inl ⟨m, h⟩⟩
    · rw [Eff.bind_fault h1] at he
      cases he

/-- A member function which throws. -/
theorem op_threw {P : Platform} (hP : P.Valid) {p : Proto σ} {b b' : Buf σ} {m : Machine} {w w' : σ} (h : Rel p b m)
    (hb : BufOk P p b) (hz : b.ibuf.length ≤ b.sizeMax) (op : Op σ) (hop : op.Ok P) (he : op.run P (b, w) = .threw (b', w')) :
    Same b b' ∧ ((∃ m', Rel p b' m') ∨ (Stuck 1 b' ∧ Throws p)) := by
  have ho := op_outcome hP h hb op hop w
  rw [he] at ho
  rcases ho with ⟨hi, _⟩ | ⟨h1, h2⟩
  · cases op with
    | get => exact hi.elim
    | writeTo dest => exact hi.elim
    | reply k n output => exact hi.elim
    | put x =>
      have he : (Buf.put P x >>= fun _ => pure ()) (b, w) = .threw (b', w') := he
      cases hx : Buf.put P x (b, w) with
      | fault f => rw [Eff.bind_fault hx] at he; cases he
      | ret a t => rw [Eff.bind_ret hx] at he; cases he
      | threw t =>
        rw [Eff.bind_threw hx] at he
        cases he
        obtain ⟨h2, h3, _, _, h4⟩ := put_threw_stuck hP h.inp hb hz hx
        exact ⟨h2, .inr ⟨h3, h4⟩⟩
    | readFrom src =>
      have he : (Buf.readFrom P src >>= fun _ => pure ()) (b, w) = .threw (b', w') := he
      cases hx : Buf.readFrom P src (b, w) with
      | fault f => rw [Eff.bind_fault hx] at he; cases he
      | ret a t => rw [Eff.bind_ret hx] at he; cases he
      | threw t =>
        rw [Eff.bind_threw hx] at he
        cases he
        rw [readFrom_feed hP h.inp hb (n := b.ibuf.length) (by omega)] at hx
        exact feed_threw hP h hb hz (by omega) hx
    | process src dest =>
      have he : ((Buf.readFrom P src >>= fun status =>
        if status = .resolved then Buf.writeTo dest >>= fun _ => pure status else pure status) >>= fun _ => pure ()) (b, w) = .threw (b', w') := he
      rw [bind_assoc] at he
      have ho := readFrom_outcome hP src h hb w
      cases hx : Buf.readFrom P src (b, w) with
      | fault f => rw [Eff.bind_fault hx] at he; cases he
      | threw t =>
        rw [Eff.bind_threw hx] at he
        cases he
        rw [readFrom_feed hP h.inp hb (n := b.ibuf.length) (by omega)] at hx
        exact feed_threw hP h hb hz (by omega) hx
      | ret st t =>
        obtain ⟨b1, w1⟩ := t
        rw [hx] at ho
        obtain ⟨_, h1, h2, out, h3⟩ := ho
        rw [Eff.bind_ret hx] at he
        by_cases hr : st = .resolved
        · have hw := writeTo_outcome (p := p) (m := ⟨[], out⟩) ⟨h2, h3⟩ dest w1
          simp only [if_pos hr, bind_assoc] at he
          cases hy : Buf.writeTo dest (b1, w1) with
          | fault f => rw [Eff.bind_fault hy] at he; cases he
          | ret a t => rw [Eff.bind_ret hy] at he; cases he
          | threw t =>
            rw [Eff.bind_threw hy] at he
            cases he
            rw [hy] at hw
            exact ⟨h1.trans hw.1, .inl hw.2⟩
        · simp only [if_neg hr] at he
          cases he
  · exact ⟨h1, .inl h2⟩

/-- Invariant of the histories in which any exception may be caught. -/
theorem reachAny_inv {P : Platform} {K : Keyring} {f : Features} {defs : Nat → List Val → Eff σ (Option Val)}
    (h : Setting P K f defs) {sizeMax : Nat} {shared : Bool} (hz : neededInput K ≤ sizeMax) {w0 : σ} {st : BState σ}
    (hr : ReachAny P (fresh P K f defs sizeMax shared, w0) st) :
    Same (fresh P K f defs sizeMax shared) st.1 ∧ ((∃ m, Rel (protoOf K defs) st.1 m) ∨ (Stuck 1 st.1 ∧ Throws (protoOf K defs))) := by
  have hz' : (fresh P K f defs sizeMax shared).ibuf.length ≤ (fresh P K f defs sizeMax shared).sizeMax := by
    rw [fresh_ilen]
    cases shared <;> exact hz
  induction hr with
  | start => exact ⟨Same.refl _, .inl ⟨_, fresh_rel h sizeMax shared⟩⟩
  | world w' _ ih => exact ih
  | @ret st st' op _ hop he ih =>
    obtain ⟨hs, ⟨m, hm⟩ | ⟨hm, ht⟩⟩ := ih
    · have := op_outcome h.valid hm ((fresh_ok h sizeMax shared).same hs) op hop st.2
      rw [show (st.1, st.2) = st from rfl, he] at this
      exact ⟨hs.trans this.1, .inl this.2⟩
    · have := op_stuck h.valid hm op hop st.2
      rw [show (st.1, st.2) = st from rfl, he] at this
      exact ⟨hs.trans this.1, .inr ⟨this.2, ht⟩⟩
  | @threw st st' op _ hop he ih =>
    obtain ⟨hs, ⟨m, hm⟩ | ⟨hm, ht⟩⟩ := ih
    · have := op_threw h.valid hm ((fresh_ok h sizeMax shared).same hs) (by rw [hs.ilen, hs.size]; exact hz') op hop
        (show op.run P (st.1, st.2) = .threw (st'.1, st'.2) from he)
      exact ⟨hs.trans this.1, this.2⟩
    · have := op_stuck h.valid hm op hop st.2
      rw [show (st.1, st.2) = st from rfl, he] at this
      exact ⟨hs.trans this.1, .inr ⟨this.2, ht⟩⟩

end Upd
