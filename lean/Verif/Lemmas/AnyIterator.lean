import Verif.Lemmas.Probe
import Verif.Lemmas.Deferred
import Verif.Spec.AnyIterator

/-! Helper lemmas: iterators of any class. -/

namespace Upd
open Spec TypeList

variable {σ ι ο α : Type} {P : Platform} {K : Keyring} {f : Features} {defs : Nat → List Val → Eff σ (Option Val)}

theorem yields_walk {next : InputIt σ ι} {it it' : ι} {w w' : σ} {bs : List Byte} (h : ItYields next it w bs it' w') (o : ο) :
    Yields (Walk.read next) ((it, o), w) bs ((it', o), w') := by
  induction h with
  | nil => exact .nil _
  | cons h1 _ ih =>
    refine .cons ?_ ih
    unfold Walk.read
    simp only [h1]

/-- Bytes stored by the wrapper of an output iterator. -/
theorem scope_putAll {store : OutputIt σ ο} {β : Type} (b : β) : ∀ (bs : List Byte) (it : ι) (o : ο) (w : σ),
    Walk.scope it o (putAll (Walk.write store) bs >>= fun _ => pure b) w = (storeAll store o bs >>= fun _ => pure b) w
  | [], it, o, w => rfl
  | x :: bs, it, o, w => by
    have ih := scope_putAll (store := store) b bs it
    show (match ((Walk.write store x >>= fun _ => putAll (Walk.write store) bs) >>= fun _ => (pure b : Eff (Walk ι ο σ) β)) ((it, o), w) with
      | .ret a st => .ret a st.2 | .threw st => .threw st.2 | .fault f => .fault f : Res σ β) = ((store o x >>= fun o => storeAll store o bs) >>= fun _ => pure b) w
    rw [bind_assoc, bind_assoc]
    cases hs : store o x w with
    | fault g =>
      have h1 : (Walk.write store x : Eff (Walk ι ο σ) Unit) ((it, o), w) = .fault g := by unfold Walk.write; simp only [hs]
      rw [Eff.bind_fault h1, Eff.bind_fault hs]
    | threw w1 =>
      have h1 : (Walk.write store x : Eff (Walk ι ο σ) Unit) ((it, o), w) = .threw ((it, o), w1) := by unfold Walk.write; simp only [hs]
      rw [Eff.bind_threw h1, Eff.bind_threw hs]
    | ret o1 w1 =>
      have h1 : (Walk.write store x : Eff (Walk ι ο σ) Unit) ((it, o), w) = .ret () ((it, o1), w1) := by unfold Walk.write; simp only [hs]
      rw [Eff.bind_ret h1, Eff.bind_ret hs]
      exact ih o1 w1

/-- The callback and the response. -/
theorem walk_respond (hP : P.Valid) {e : Endian} {s : Mode} (hs : Supported P e s) {cb : Callback σ} (hg : SigOk cb.sig) (hc : WellTyped P s cb) {args : List Val}
    (hf : Val.FitsAll (Safe P s) cb.sig.params args) {store : OutputIt σ ο} {β : Type} (b : β) (it : ι) (o : ο) (w : σ) :
    Walk.scope it o (Eff.zoom Walk.world (cb.fn args) >>= fun r => respond P e s cb.sig.ret r (Walk.write store) >>= fun _ => pure b) w =
      (cb.fn args >>= fun r => storeAll store o (response e s cb.sig.ret r) >>= fun _ => pure b) w := by
  cases hd : cb.fn args w with
  | fault g =>
    rw [Eff.bind_fault hd]
    unfold Walk.scope
    rw [Eff.bind_fault (zoom_fault (L := Walk.world) hd)]
  | threw w1 =>
    rw [Eff.bind_threw hd]
    unfold Walk.scope
    rw [Eff.bind_threw (zoom_threw (L := Walk.world) hd)]
    rfl
  | ret r w1 =>
    rw [Eff.bind_ret hd, ← scope_putAll b _ it o w1]
    unfold Walk.scope
    rw [Eff.bind_ret (zoom_ret (L := Walk.world) hd), respond_eq hP hs hg.2.2 (hc _ _ _ _ hf hd)]
    rfl

/-! ## Streams -/

/-- The iterators are left out. -/
def SameBelow (st : Walk ι ο σ) (w : σ) : Prop := st.2 = w

theorem stream_sim {next : InputIt σ ι} {src : Eff σ Byte} (h : StreamOf next src) : SimV (SameBelow (ο := ο)) (· = ·) (Walk.read next) src := by
  rintro ⟨⟨it, o⟩, w⟩ _ rfl
  have h1 := h it w
  unfold Walk.read
  simp only
  cases hs : src w with
  | ret x w' => rw [hs] at h1; obtain ⟨it', h1⟩ := h1; rw [h1]; exact ⟨rfl, rfl⟩
  | threw w' => rw [hs] at h1; simp only at h1; rw [h1]; exact rfl
  | fault g => rw [hs] at h1; simp only at h1; rw [h1]; exact rfl

theorem sink_sim {store : OutputIt σ ο} {dest : Byte → Eff σ Unit} (h : SinkOf store dest) (x : Byte) : SimV (SameBelow (ι := ι)) (· = ·) (Walk.write store x) (dest x) := by
  rintro ⟨⟨it, o⟩, w⟩ _ rfl
  have h1 := h o x w
  unfold Walk.write
  dsimp only
  cases hs : dest x w with
  | ret u w' => rw [hs] at h1; obtain ⟨it', h1⟩ := h1; rw [h1]; exact ⟨rfl, rfl⟩
  | threw w' => rw [hs] at h1; simp only at h1; rw [h1]; exact rfl
  | fault g => rw [hs] at h1; simp only at h1; rw [h1]; exact rfl

theorem scope_sim {x : Eff (Walk ι ο σ) α} {y : Eff σ α} (h : SimV SameBelow (· = ·) x y) (it : ι) (o : ο) (w : σ) : Walk.scope it o x w = y w := by
  have h1 := h ((it, o), w) w rfl
  unfold Walk.scope
  revert h1
  cases x ((it, o), w) <;> cases y w <;> intro h1
  · obtain ⟨rfl, h2⟩ := h1; simp only; rw [show _ = _ from h2]
  · exact h1.elim
  · exact h1.elim
  · exact h1.elim
  · simp only; rw [show _ = _ from h1]
  · exact h1.elim
  · exact h1.elim
  · exact h1.elim
  · exact congrArg _ h1

theorem sim_refl (x : Eff σ α) : SimV (· = ·) (· = ·) x x := by
  rintro w _ rfl
  cases x w with
  | ret a w' => exact ⟨rfl, rfl⟩
  | threw w' => exact rfl
  | fault g => exact rfl

theorem hosted_indistinct : Indistinct P K (SameBelow (ι := ι) (ο := ο)) (Walk.hosted defs) defs := by
  intro d _ args _
  have h := SimV.zoom (T := SameBelow (ι := ι) (ο := ο) (σ := σ)) (R := (· = ·)) (L := Walk.world) (L' := Lens.whole σ) (fun _ _ h => h) (fun _ _ _ _ _ h => h) (sim_refl (defs d.name args))
  rw [zoom_whole] at h
  exact h

theorem process_walk_sim (hP : P.Valid) {next : InputIt σ ι} {src : Eff σ Byte} (h : StreamOf next src) {store : OutputIt σ ο} {dest : Byte → Eff σ Unit} (hd : SinkOf store dest) (i : ι) (o : ο) :
    SimV (BRel P SameBelow SameBelow) (· = ·) (Buf.processWalk P next store i o) (Buf.process P src dest) := by
  rintro ⟨b, st⟩ ⟨b', w⟩ ⟨h1, h2⟩
  exact SimV.process hP (stream_sim h) (sink_sim hd) _ _ ⟨h1, h2⟩

theorem walks_sim (hP : P.Valid) {next : InputIt σ ι} {src : Eff σ Byte} (h : StreamOf next src) {store : OutputIt σ ο} {dest : Byte → Eff σ Unit} (hd : SinkOf store dest) : ∀ l : List (ι × ο),
    SimV (BRel P SameBelow SameBelow) (· = ·) (walks P next store l) (turns P src dest l.length)
  | [] => SimV.pure rfl
  | (i, o) :: l => SimV.seq (process_walk_sim hP h hd i o) fun _ => SimV.seq (walks_sim hP h hd l) fun _ => SimV.pure rfl

theorem walk_hosted_setting (h : Setting P K f defs) : Setting P K f (Walk.hosted (ι := ι) (ο := ο) defs) := by
  refine ⟨h.valid, h.ring, h.sup, h.sizes, fun d hd => ?_⟩
  intro args w r w' hf h1
  obtain ⟨p, w⟩ := w
  unfold Walk.hosted Eff.zoom at h1
  dsimp only at h1
  cases hx : defs d.name args w with
  | ret r1 w1 =>
    rw [show Walk.world.get (p, w) = w from rfl, hx] at h1
    injection h1 with h2 h3
    subst h2
    exact h.typed d hd args w r1 w1 hf hx
  | threw w1 => rw [show Walk.world.get (p, w) = w from rfl, hx] at h1; cases h1
  | fault g => rw [show Walk.world.get (p, w) = w from rfl, hx] at h1; cases h1

end Upd
