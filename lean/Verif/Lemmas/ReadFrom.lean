import Verif.Lemmas.Cases

/-! Helper lemmas: the loops of `read_from` and `write_to`. -/

namespace Upd
open Spec

variable {σ : Type}

theorem onWorld_ret {α ω : Type} {x : Eff ω α} {b : Buf σ} {w w' : ω} {a : α} (h : x w = .ret a w') :
    onWorld x (b, w) = .ret a (b, w') := by
  unfold onWorld; exact zoom_ret h

theorem onWorld_threw {α ω : Type} {x : Eff ω α} {b : Buf σ} {w w' : ω} (h : x w = .threw w') :
    onWorld x (b, w) = .threw (b, w') := by
  unfold onWorld; exact zoom_threw h

theorem onWorld_fault {α ω : Type} {x : Eff ω α} {b : Buf σ} {w : ω} {f : Fault} (h : x w = .fault f) :
    onWorld x (b, w) = .fault f := by
  unfold onWorld Eff.zoom; rw [h]

theorem onWorld_cases {α ω : Type} (x : Eff ω α) (b : Buf σ) (w : ω) :
    (∃ a w', x w = .ret a w' ∧ onWorld x (b, w) = .ret a (b, w')) ∨
    (∃ w', x w = .threw w' ∧ onWorld x (b, w) = .threw (b, w')) ∨
    (∃ f, x w = .fault f ∧ onWorld x (b, w) = .fault f) := by
  cases h : x w with
  | ret a w' => exact Or.inl ⟨a, w', rfl, onWorld_ret h⟩
  | threw w' => exact Or.inr (Or.inl ⟨w', rfl, onWorld_threw h⟩)
  | fault f => exact Or.inr (Or.inr ⟨f, rfl, onWorld_fault h⟩)

/-- State after a `put` which returned. -/
theorem put_ret {P : Platform} (hP : P.Valid) {p : Proto σ} {b : Buf σ} {pending : List Byte} (h : RelIn p b pending)
    (hb : BufOk P p b) {x : Byte} {w : σ} {st : Status} {b' : Buf σ} {w' : σ}
    (hput : Buf.put P x (b, w) = .ret st (b', w')) :
    Same b b' ∧ ((st = .loading ∧ RelIn p b' (pending ++ [x])) ∨ (st ≠ .loading ∧ RelIn p b' [])) := by
  rcases put_cases hP h hb x w with ⟨_, b1, h1, h2, h3, _⟩ | ⟨_, b1, h1, h2, h3, _⟩ | ⟨cb, args, _, _, _, h0⟩
  · rw [h1] at hput; cases hput; exact ⟨h3, Or.inl ⟨rfl, h2⟩⟩
  · rw [h1] at hput; cases hput; exact ⟨h3, Or.inr ⟨by simp, h2⟩⟩
  · rcases h0 with ⟨_, ⟨r, w1, _, _, ⟨b1, h1, h2, _, h3⟩ | ⟨_, h1⟩⟩ | ⟨w1, b1, _, h1⟩ | ⟨f, _, h1⟩⟩ | ⟨f, _, _, h1⟩
    · rw [h1] at hput; cases hput; exact ⟨h3, Or.inr ⟨by simp, h2⟩⟩
    all_goals (rw [h1] at hput; cases hput)

/-- Puts bytes from `src` until a packet ends. -/
def feed (P : Platform) (src : Eff σ Byte) : Nat → Eff (BState σ) Status
  | 0 => Eff.lift (.error .starved)
  | n + 1 => do
    let x ← onWorld src
    let st ← Buf.put P x
    if st = .loading then feed P src n else pure st

theorem feed_step {P : Platform} {src : Eff σ Byte} {n : Nat} : feed P src (n + 1) = (onWorld src >>= fun x =>
    Buf.put P x >>= fun st => if st = .loading then feed P src n else pure st) := rfl

/-- To compare two ways of going on after a `put`. -/
theorem put_bind_congr {P : Platform} (hP : P.Valid) {p : Proto σ} {src : Eff σ Byte} {b : Buf σ} {pending : List Byte}
    (h : RelIn p b pending) (hb : BufOk P p b) {α : Type} {f g : Status → Eff (BState σ) α} {w : σ}
    (hfg : ∀ x st b' w', Same b b' → BufOk P p b' →
      ((st = .loading ∧ RelIn p b' (pending ++ [x])) ∨ (st ≠ .loading ∧ RelIn p b' [])) → f st (b', w') = g st (b', w')) :
    (onWorld src >>= fun x => Buf.put P x >>= f) (b, w) = (onWorld src >>= fun x => Buf.put P x >>= g) (b, w) := by
  rcases onWorld_cases src b w with ⟨x, w1, _, h1⟩ | ⟨w1, _, h1⟩ | ⟨f', _, h1⟩
  · rw [Eff.bind_ret h1, Eff.bind_ret h1]
    cases hput : Buf.put P x (b, w1) with
    | ret st t =>
      obtain ⟨b', w'⟩ := t
      obtain ⟨hs, hr⟩ := put_ret hP h hb hput
      rw [Eff.bind_ret hput, Eff.bind_ret hput, hfg x st b' w' hs (hb.same hs) hr]
    | threw t => rw [Eff.bind_threw hput, Eff.bind_threw hput]
    | fault f' => rw [Eff.bind_fault hput, Eff.bind_fault hput]
  · rw [Eff.bind_threw h1, Eff.bind_threw h1]
  · rw [Eff.bind_fault h1, Eff.bind_fault h1]

theorem feed_fuel {P : Platform} (hP : P.Valid) {p : Proto σ} {src : Eff σ Byte} : ∀ {n n' : Nat} {b : Buf σ}
    {pending : List Byte} {w : σ}, RelIn p b pending → BufOk P p b → b.ibuf.length - pending.length ≤ n →
    b.ibuf.length - pending.length ≤ n' → feed P src n (b, w) = feed P src n' (b, w)
  | 0, _, b, pending, w, h, hb, h1, _ => by have := h.lt hb; omega
  | _, 0, b, pending, w, h, hb, _, h1 => by have := h.lt hb; omega
  | n + 1, n' + 1, b, pending, w, h, hb, h1, h2 => by
    rw [feed_step, feed_step]
    apply put_bind_congr hP h hb
    intro x st b' w' hs hb' hr
    rcases hr with ⟨rfl, hr⟩ | ⟨hne, hr⟩
    · simp only [if_true]
      exact feed_fuel hP hr hb' (by rw [hs.ilen, List.length_append]; simp; omega)
        (by rw [hs.ilen, List.length_append]; simp; omega)
    · simp only [if_neg hne]

theorem loop2_eq {P : Platform} {src : Eff σ Byte} {n : Nat} {st : Status} {b : Buf σ} {w : σ} :
    Buf.readLoop2 P src (n + 1) st (b, w) =
      (if b.indexLoaded then onWorld src >>= fun x => Buf.put P x >>= fun st => Buf.readLoop2 P src n st
        else pure st) (b, w) := rfl

theorem loop1_eq {P : Platform} {src : Eff σ Byte} {n : Nat} {st : Status} {b : Buf σ} {w : σ} :
    Buf.readLoop1 P src (n + 1) st (b, w) =
      (if !b.indexLoaded && st = .loading then onWorld src >>= fun x => Buf.put P x >>= fun st => Buf.readLoop1 P src n st
        else pure st) (b, w) := rfl

theorem relIn_nil_loaded {p : Proto σ} {b : Buf σ} (hpos : 1 ≤ p.idxBytes) (h : RelIn p b []) : b.indexLoaded = false := by
  rcases h.load with ⟨_, h1, _⟩ | ⟨h1, _, _⟩
  · exact h1
  · simp at h1; omega

theorem loop2_feed {P : Platform} (hP : P.Valid) {p : Proto σ} {src : Eff σ Byte} : ∀ {n : Nat} {b : Buf σ}
    {pending : List Byte} {w : σ} {st : Status}, RelIn p b pending → BufOk P p b → b.indexLoaded = true →
    b.ibuf.length - pending.length ≤ n → Buf.readLoop2 P src (n + 1) st (b, w) = feed P src n (b, w)
  | 0, b, pending, w, st, h, hb, _, h1 => by have := h.lt hb; omega
  | n + 1, b, pending, w, st, h, hb, hi, h1 => by
    have hge : p.idxBytes ≤ pending.length := by
      rcases h.load with ⟨_, h2, _⟩ | ⟨h2, _, _⟩
      · rw [h2] at hi; cases hi
      · exact h2
    rw [loop2_eq, if_pos hi, feed_step]
    apply put_bind_congr hP h hb
    intro x st b' w' hs hb' hr
    rcases hr with ⟨rfl, hr⟩ | ⟨hne, hr⟩
    · simp only [if_true]
      have hi' : b'.indexLoaded = true := by
        rcases hr.load with ⟨h2, _, _⟩ | ⟨_, h2, _⟩
        · simp at h2; omega
        · exact h2
      exact loop2_feed hP hr hb' hi' (by rw [hs.ilen, List.length_append]; simp; omega)
    · rw [if_neg hne, loop2_eq, if_neg (by rw [relIn_nil_loaded hb.serves.pos hr]; simp)]

theorem loops_feed {P : Platform} (hP : P.Valid) {p : Proto σ} {src : Eff σ Byte} {N : Nat} : ∀ {n : Nat} {b : Buf σ}
    {pending : List Byte} {w : σ}, RelIn p b pending → BufOk P p b → b.ibuf.length - pending.length ≤ n →
    b.ibuf.length ≤ N →
    (Buf.readLoop1 P src (n + 1) .loading >>= Buf.readLoop2 P src (N + 1)) (b, w) = feed P src n (b, w)
  | 0, b, pending, w, h, hb, h1, _ => by have := h.lt hb; omega
  | n + 1, b, pending, w, h, hb, h1, h2 => by
    cases hi : b.indexLoaded
    · show Eff.bind _ _ (b, w) = _
      unfold Eff.bind
      rw [loop1_eq, if_pos (by rw [hi]; rfl)]
      show Eff.bind (onWorld src >>= fun x => Buf.put P x >>= fun st => Buf.readLoop1 P src (n + 1) st)
        (Buf.readLoop2 P src (N + 1)) (b, w) = _
      show ((onWorld src >>= fun x => Buf.put P x >>= fun st => Buf.readLoop1 P src (n + 1) st) >>=
        (Buf.readLoop2 P src (N + 1))) (b, w) = _
      simp only [bind_assoc]
      rw [feed_step]
      apply put_bind_congr hP h hb
      intro x st b' w' hs hb' hr
      rcases hr with ⟨rfl, hr⟩ | ⟨hne, hr⟩
      · simp only [if_true]
        exact loops_feed hP hr hb' (by rw [hs.ilen, List.length_append]; simp; omega) (by rw [hs.ilen]; exact h2)
      · have hi' := relIn_nil_loaded hb.serves.pos hr
        have hl1 : Buf.readLoop1 P src (n + 1) st (b', w') = .ret st (b', w') := by
          rw [loop1_eq, if_neg (by simp [hne])]; rfl
        rw [if_neg hne, Eff.bind_ret hl1, loop2_eq, if_neg (by rw [hi']; simp)]
    · have hl1 : Buf.readLoop1 P src (n + 1 + 1) .loading (b, w) = .ret .loading (b, w) := by
        rw [loop1_eq, if_neg (by simp [hi])]; rfl
      rw [Eff.bind_ret hl1, loop2_feed hP h hb hi (by omega)]
      exact feed_fuel hP h hb (by omega) h1

/-- `read_from` is `feed`, with any sufficient bound. -/
theorem readFrom_feed {P : Platform} (hP : P.Valid) {p : Proto σ} {src : Eff σ Byte} {b : Buf σ} {pending : List Byte}
    {w : σ} (h : RelIn p b pending) (hb : BufOk P p b) {n : Nat} (hn : b.ibuf.length - pending.length ≤ n) :
    Buf.readFrom P src (b, w) = feed P src n (b, w) := by
  show (Buf.readLoop1 P src (b.ibuf.length + 2) .loading >>= Buf.readLoop2 P src (b.ibuf.length + 2)) (b, w) = _
  rw [loops_feed hP h hb (n := b.ibuf.length + 1) (N := b.ibuf.length + 1) (by omega) (by omega)]
  exact feed_fuel hP h hb (by omega) hn

/-- `read_from` puts a byte, then goes on unless the packet has ended. -/
theorem readFrom_unfold {P : Platform} (hP : P.Valid) {p : Proto σ} {src : Eff σ Byte} {b : Buf σ} {pending : List Byte}
    {w : σ} (h : RelIn p b pending) (hb : BufOk P p b) :
    Buf.readFrom P src (b, w) = (onWorld src >>= fun x => Buf.put P x >>= fun st =>
      if st = .loading then Buf.readFrom P src else pure st) (b, w) := by
  rw [readFrom_feed hP h hb (n := b.ibuf.length + 1) (by omega), feed_step]
  apply put_bind_congr hP h hb
  intro x st b' w' hs hb' hr
  rcases hr with ⟨rfl, hr⟩ | ⟨hne, hr⟩
  · simp only [if_true]
    rw [readFrom_feed hP hr hb' (n := b.ibuf.length) (by rw [hs.ilen]; omega)]
  · simp only [if_neg hne]

/-! ## `write_to` -/

theorem writeLoop_cases {ω : Type} (dest : Byte → Eff ω Unit) : ∀ {out : List Byte} {n : Nat} {b : Buf σ} {w : ω},
    Unread b out → out.length < n →
    (∃ w', Accepts dest w out w' ∧ Buf.writeLoop dest n (b, w) = .ret () ({ b with obufNext := b.obufBottom }, w')) ∨
    (∃ sent x rest w1, out = sent ++ x :: rest ∧ Accepts dest w sent w1 ∧
      ((∃ w', dest x w1 = .threw w' ∧
          Unread { b with obufNext := b.obufNext + (sent.length + 1) } rest ∧
          Buf.writeLoop dest n (b, w) = .threw ({ b with obufNext := b.obufNext + (sent.length + 1) }, w')) ∨
        (∃ f, dest x w1 = .fault f ∧ Buf.writeLoop dest n (b, w) = .fault f)))
  | [], n + 1, b, w, h, _ => by
    have hl : b.isLoaded = false := unread_isLoaded h
    have hb : b.obufBottom = b.obufNext := by have := h.bottom; simp at this; omega
    refine Or.inl ⟨w, .nil w, ?_⟩
    show (if b.isLoaded then _ else pure () : Eff (Buf σ × ω) Unit) (b, w) = .ret () _
    rw [if_neg (by rw [hl]; simp), hb]
    show Res.ret () (b, w) = _
    congr 2
    cases b
    simp only at hb
    rw [hb]
  | x :: out, 0, b, w, h, hn => by omega
  | x :: out, n + 1, b, w, h, hn => by
    have hl : b.isLoaded = true := unread_isLoaded h
    obtain ⟨b', h1, h2, h3, h4⟩ := get_cons h w
    have hu : Buf.writeLoop dest (n + 1) (b, w) = (onWorld (dest x) >>= fun _ => Buf.writeLoop dest n) (b', w) := by
      show (if b.isLoaded then (Buf.get >>= fun x => onWorld (dest x) >>= fun _ => Buf.writeLoop dest n) else pure () :
        Eff (Buf σ × ω) Unit) (b, w) = _
      rw [if_pos hl, Eff.bind_ret h1]
    rw [hu]
    rcases onWorld_cases (dest x) b' w with ⟨a, w', hd, h5⟩ | ⟨w', hd, h5⟩ | ⟨f, hd, h5⟩
    · rw [Eff.bind_ret h5]
      rcases writeLoop_cases dest (n := n) (w := w') h2 (by simpa using hn) with ⟨w2, h6, h7⟩ |
        ⟨sent, y, rest, w1, h6, h7, h8⟩
      · exact Or.inl ⟨w2, .cons hd h6, by rw [h7, h4]⟩
      · refine Or.inr ⟨x :: sent, y, rest, w1, by rw [h6]; rfl, .cons hd h7, ?_⟩
        subst h4
        have he : b.obufNext + 1 + (sent.length + 1) = b.obufNext + ((x :: sent).length + 1) := by simp; omega
        simp only [he] at h8 ⊢
        exact h8
    · refine Or.inr ⟨[], x, out, w, rfl, .nil w, Or.inl ⟨w', hd, ?_, ?_⟩⟩
      · rw [← show b' = { b with obufNext := b.obufNext + (([] : List Byte).length + 1) } from h4]; exact h2
      · rw [Eff.bind_threw h5, h4]; rfl
    · exact Or.inr ⟨[], x, out, w, rfl, .nil w, Or.inr ⟨f, hd, by rw [Eff.bind_fault h5]⟩⟩

/-- What `write_to` may do. -/
theorem writeTo_cases {ω : Type} (dest : Byte → Eff ω Unit) {out : List Byte} {b : Buf σ} {w : ω} (h : Unread b out) :
    (∃ w', Accepts dest w out w' ∧ Buf.writeTo dest (b, w) = .ret () ({ b with obufNext := b.obufBottom }, w')) ∨
    (∃ sent x rest w1, out = sent ++ x :: rest ∧ Accepts dest w sent w1 ∧
      ((∃ w', dest x w1 = .threw w' ∧
          Unread { b with obufNext := b.obufNext + (sent.length + 1) } rest ∧
          Buf.writeTo dest (b, w) = .threw ({ b with obufNext := b.obufNext + (sent.length + 1) }, w')) ∨
        (∃ f, dest x w1 = .fault f ∧ Buf.writeTo dest (b, w) = .fault f))) :=
  writeLoop_cases dest (n := b.out.length + 2) h (by have := h.bottom; have := h.le; omega)

theorem unread_drained {b : Buf σ} {out : List Byte} (h : Unread b out) :
    Unread { b with obufNext := b.obufBottom } [] := ⟨rfl, h.le, slice_zero _ _⟩

end Upd
