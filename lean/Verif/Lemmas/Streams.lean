import Verif.Lemmas.Iterator
import Verif.Spec.Streams

/-! # Byte streams of any kind -/

namespace Upd
open Spec

variable {σ α : Type}

/-- Running a state transformer on a part of the state which is got back as it was put. -/
theorem yields_zoom {τ σ : Type} {L : Lens τ σ} (hL : ∀ w t, L.get (L.put w t) = w) (hL2 : ∀ w w' t, L.put w (L.put w' t) = L.put w t)
    (hL3 : ∀ t, L.put (L.get t) t = t) {src : Eff σ Byte} : ∀ {bs : List Byte} {w w1 : σ}, Yields src w bs w1 →
    ∀ t, L.get t = w → Yields (Eff.zoom L src) t bs (L.put w1 t)
  | [], w, _, .nil _, t, ht => by
    rw [← ht, hL3]
    exact .nil _
  | b :: bs, w, w2, .cons (w1 := w1) h hy, t, ht => by
    have h1 : Eff.zoom L src t = .ret b (L.put w1 t) := zoom_ret (by rw [ht]; exact h)
    refine .cons h1 ?_
    have := yields_zoom hL hL2 hL3 hy (L.put w1 t) (hL _ _)
    rwa [hL2] at this

theorem putAll_zoom {τ σ : Type} {L : Lens τ σ} (hL : ∀ w t, L.get (L.put w t) = w) (hL2 : ∀ w w' t, L.put w (L.put w' t) = L.put w t)
    (hL3 : ∀ t, L.put (L.get t) t = t) {dest : Byte → Eff σ Unit} : ∀ (bs : List Byte),
    putAll (fun x => Eff.zoom L (dest x)) bs = Eff.zoom L (putAll dest bs)
  | [] => by
    funext t
    show Res.ret () t = Res.ret () (L.put (L.get t) t)
    rw [hL3]
  | b :: bs => by
    funext t
    show (Eff.zoom L (dest b) >>= fun _ => putAll (fun x => Eff.zoom L (dest x)) bs) t = Eff.zoom L (dest b >>= fun _ => putAll dest bs) t
    cases h : dest b (L.get t) with
    | fault f => rw [Eff.bind_fault (zoom_fault h), zoom_fault (Eff.bind_fault h)]
    | threw w => rw [Eff.bind_threw (zoom_threw h), zoom_threw (Eff.bind_threw h)]
    | ret a w =>
      rw [Eff.bind_ret (zoom_ret h), putAll_zoom hL hL2 hL3 bs]
      unfold Eff.zoom
      rw [Eff.bind_ret h, hL]
      cases putAll dest bs w <;> simp only [hL2]

theorem gives_call {i : Input σ} {w w1 : σ} {bs : List Byte} (h : Gives i w bs w1) : ∃ c, Yields i.call (i.copy, w) bs (c, w1) := by
  cases i with
  | functor src => exact ⟨(), yields_zoom (L := Lens.second Unit σ) (fun _ _ => rfl) (fun _ _ _ => rfl) (fun _ => rfl) h ((), w) rfl⟩
  | iterator ι next it => exact h

theorem takes_call (o : Output σ) (bs : List Byte) : withCopy o.copy (putAll o.call bs) = takes o bs := by
  cases o with
  | functor dest =>
    show withCopy () (putAll (fun x => Eff.zoom (Lens.second Unit σ) (dest x)) bs) = _
    rw [putAll_zoom (L := Lens.second Unit σ) (fun _ _ => rfl) (fun _ _ _ => rfl) (fun _ => rfl)]
    funext w
    show withCopy () (Eff.zoom (Lens.second Unit σ) (putAll dest bs)) w = putAll dest bs w
    unfold withCopy
    cases h : putAll dest bs w with
    | ret a w' => rw [zoom_ret (L := Lens.second Unit σ) (w := ((), w)) h]; rfl
    | threw w' => rw [zoom_threw (L := Lens.second Unit σ) (w := ((), w)) h]; rfl
    | fault f => rw [zoom_fault (L := Lens.second Unit σ) (t := ((), w)) h]
  | iterator ο put it =>
    funext w
    show withCopy it (putAll put bs) w = (match putAll put bs (it, w) with | .ret _ st => .ret () st.2 | .threw st => .threw st.2 | .fault f => .fault f)
    unfold withCopy
    cases putAll put bs (it, w) <;> rfl

/-- The part of the state which an input sees, when there is an output too. -/
def Both.inPart (i : Input σ) (o : Output σ) : Lens (Both i o) (i.Copy × σ) := ⟨fun st => (st.1, st.2.2), fun p st => (p.1, st.2.1, p.2)⟩

/-- The part of the state which an output sees, when there is an input too. -/
def Both.outPart (i : Input σ) (o : Output σ) : Lens (Both i o) (o.Copy × σ) := ⟨fun st => st.2, fun p st => (st.1, p)⟩

theorem yields_both {i : Input σ} (o : Output σ) {w w1 : σ} {bs : List Byte} (h : Gives i w bs w1) :
    ∃ c, Yields (Both.src i o) (i.copy, o.copy, w) bs (c, o.copy, w1) := by
  obtain ⟨c, hy⟩ := gives_call h
  exact ⟨c, yields_zoom (L := Both.inPart i o) (fun _ _ => rfl) (fun _ _ _ => rfl) (fun _ => rfl) hy
    (i.copy, o.copy, w) rfl⟩

theorem putAll_both (i : Input σ) (o : Output σ) (bs : List Byte) (c : i.Copy) (w : σ) :
    putAll (Both.dest i o) bs (c, o.copy, w) =
      match putAll o.call bs (o.copy, w) with
      | .ret a st => .ret a (c, st)
      | .threw st => .threw (c, st)
      | .fault f => .fault f := by
  show putAll (fun x => Eff.zoom (Both.outPart i o) (o.call x)) bs _ = _
  rw [putAll_zoom (L := Both.outPart i o) (fun _ _ => rfl) (fun _ _ _ => rfl) (fun _ => rfl)]
  cases h : putAll o.call bs (o.copy, w) with
  | ret a st => rw [zoom_ret (L := Both.outPart i o) (w := (c, o.copy, w)) h]; rfl
  | threw st => rw [zoom_threw (L := Both.outPart i o) (w := (c, o.copy, w)) h]; rfl
  | fault f => rw [zoom_fault (L := Both.outPart i o) (t := (c, o.copy, w)) h]

/-- The callback and the response, on streams of any kind. -/
theorem respond_both {P : Platform} (hP : P.Valid) {e : Endian} {s : Mode} (hs : Supported P e s) {cb : Callback σ} (hg : SigOk cb.sig)
    (hc : WellTyped P s cb) {args : List Val} (hf : Val.FitsAll (Safe P s) cb.sig.params args) (a : α) (i : Input σ) (o : Output σ) (c : i.Copy) (w : σ) :
    (match (Eff.zoom (Both.world i o) (cb.fn args) >>= fun r => respond P e s cb.sig.ret r (Both.dest i o) >>= fun _ => pure a) (c, o.copy, w) with
      | .ret a st => .ret a st.2.2
      | .threw st => .threw st.2.2
      | .fault f => .fault f) = answer e s cb.sig.ret (cb.fn args) o a w := by
  unfold answer
  cases hd : cb.fn args w with
  | fault e =>
    rw [Eff.bind_fault hd, Eff.bind_fault (zoom_fault (L := Both.world i o) hd)]
  | threw w' =>
    rw [Eff.bind_threw hd, Eff.bind_threw (zoom_threw (L := Both.world i o) hd)]
    rfl
  | ret r w' =>
    rw [Eff.bind_ret hd, Eff.bind_ret (zoom_ret (L := Both.world i o) hd), respond_eq hP hs hg.2.2 (hc _ _ _ _ hf hd)]
    have h1 : putAll (Both.dest i o) (response e s cb.sig.ret r) ((Both.world i o).put w' (c, o.copy, w)) = _ :=
      putAll_both i o (response e s cb.sig.ret r) c w'
    rw [← takes_call]
    cases hp : putAll o.call (response e s cb.sig.ret r) (o.copy, w') with
    | ret u st =>
      rw [hp] at h1
      have hq : withCopy o.copy (putAll o.call (response e s cb.sig.ret r)) w' = .ret u st.2 := by unfold withCopy; rw [hp]
      rw [Eff.bind_ret hq, Eff.bind_ret h1]
      rfl
    | threw st =>
      rw [hp] at h1
      have hq : withCopy o.copy (putAll o.call (response e s cb.sig.ret r)) w' = .threw st.2 := by unfold withCopy; rw [hp]
      rw [Eff.bind_threw hq, Eff.bind_threw h1]
    | fault f =>
      rw [hp] at h1
      have hq : withCopy o.copy (putAll o.call (response e s cb.sig.ret r)) w' = .fault f := by unfold withCopy; rw [hp]
      rw [Eff.bind_fault hq, Eff.bind_fault h1]

theorem both_hosted_setting {Q : Platform} {K : Keyring} {f : Features} {defs : Nat → List Val → Eff σ (Option Val)} (h : Setting Q K f defs)
    (i : Input σ) (o : Output σ) : Setting Q K f (Both.hosted i o defs) := by
  refine ⟨h.valid, h.ring, h.sup, h.sizes, fun d hd => ?_⟩
  intro args l r l' hf hr
  obtain ⟨w, hw, _⟩ := zoom_eq_ret (L := Both.world i o) hr
  exact h.typed d hd args _ r w hf hw

theorem takes_backInserter : ∀ (bs c : List Byte) (w : σ), takes .backInserter bs (c, w) = .ret () (c ++ bs, w) := by
  have h : ∀ (bs c : List Byte) (w : σ), putAll (fun x (st : Unit × List Byte × σ) => Res.ret () (st.1, st.2.1 ++ [x], st.2.2)) bs ((), c, w) = .ret () ((), c ++ bs, w) := by
    intro bs
    induction bs with
    | nil => intro c w; rw [List.append_nil]; rfl
    | cons b bs ih =>
      intro c w
      refine (Eff.bind_ret (x := fun (st : Unit × List Byte × σ) => Res.ret () (st.1, st.2.1 ++ [b], st.2.2)) (w := ((), c, w)) rfl).trans ?_
      rw [ih]
      simp
  intro bs c w
  rw [← takes_call]
  show withCopy () (putAll (fun x (st : Unit × List Byte × σ) => Res.ret () (st.1, st.2.1 ++ [x], st.2.2)) bs) (c, w) = _
  unfold withCopy
  rw [h]

theorem gives_queue : ∀ (bs rest : List Byte) (w : σ), Gives .queue (bs ++ rest, w) bs (rest, w) := by
  intro bs
  induction bs with
  | nil => exact fun rest w => ⟨(), .nil _⟩
  | cons b bs ih =>
    intro rest w
    obtain ⟨it, h⟩ := ih rest w
    exact ⟨it, .cons rfl h⟩

/-- `*it++ = x` where `it` is a pointer. -/
def ptrPut (x : Byte) : Eff (Nat × Mem × σ) Unit := fun st =>
  match st.2.1.wr st.1 x with
  | .ok mem => .ret () (st.1 + 1, mem, st.2.2)
  | .error f => .fault f

theorem putAll_ptr : ∀ (bs : List Byte) (mem : Mem) (pos : Nat) (w : σ), pos ≤ mem.length →
    putAll ptrPut bs (pos, mem, w) = if pos + bs.length ≤ mem.length then .ret () (pos + bs.length, splice mem pos bs, w) else .fault .oobWrite
  | [], mem, pos, w, h => by
    rw [if_pos (by simpa using h), splice_nil]; rfl
  | b :: bs, mem, pos, w, h => by
    show (ptrPut b >>= fun _ => putAll ptrPut bs) _ = _
    by_cases ho : pos < mem.length
    · have h1 : ptrPut b (pos, mem, w) = .ret () (pos + 1, mem.set pos b, w) := by
        show (match mem.wr pos b with | .ok mem => _ | .error f => _) = _
        rw [Mem.wr_ok ho]
      rw [Eff.bind_ret h1, putAll_ptr bs _ _ _ (by rw [List.length_set]; omega), List.length_set, List.length_cons]
      by_cases hb : pos + (bs.length + 1) ≤ mem.length
      · rw [if_pos (by omega), if_pos hb, splice_set_cons hb, show pos + 1 + bs.length = pos + (bs.length + 1) by omega]
      · rw [if_neg (by omega), if_neg hb]
    · have h1 : ptrPut b (pos, mem, w) = .fault .oobWrite := by
        show (match mem.wr pos b with | .ok mem => _ | .error f => _) = _
        rw [Mem.wr_oob (by omega)]
      rw [Eff.bind_fault h1, if_neg (by rw [List.length_cons]; omega)]

theorem takes_pointer (bs : List Byte) (mem : Mem) (pos : Nat) (w : σ) (h : pos ≤ mem.length) :
    takes (.pointer pos) bs (mem, w) = if pos + bs.length ≤ mem.length then .ret () (splice mem pos bs, w) else .fault .oobWrite := by
  rw [← takes_call]
  show withCopy pos (putAll ptrPut bs) (mem, w) = _
  unfold withCopy
  rw [putAll_ptr _ _ _ _ h]
  by_cases hb : pos + bs.length ≤ mem.length
  · rw [if_pos hb, if_pos hb]
  · rw [if_neg hb, if_neg hb]

theorem gives_pointer : ∀ (bs : List Byte) (mem : Mem) (pos : Nat) (w : σ), slice mem pos bs.length = bs → Gives (.pointer pos) (mem, w) bs (mem, w)
  | [], _, pos, _, _ => ⟨pos, .nil _⟩
  | b :: bs, mem, pos, w, h => by
    have hb : pos + (b :: bs).length ≤ mem.length := slice_bound h rfl (by simp)
    rw [List.length_cons] at hb h
    rw [slice_succ (by omega)] at h
    obtain ⟨h1, h2⟩ := List.cons.inj h
    obtain ⟨it, hy⟩ := gives_pointer bs mem (pos + 1) w h2
    refine ⟨it, .cons ?_ hy⟩
    show (match mem.rd pos with | .ok x => _ | .error f => _) = _
    rw [Mem.rd_ok (by omega), h1]

end Upd
